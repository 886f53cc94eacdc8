import Verif.Proof.FMMSide
import Verif.Proof.FMMStill
import Verif.Props.Mesh

/-! # Properties C13–C21: fast marching

`IsGrid w h m` (`Verif/Spec/Grid.lean`) holds for every mesh built by the constructor (`new_grid`) and does not depend on
the activity and mask flags.  `t` is the debugging switch of the constructor. -/

namespace Slsm

open FMM

set_option linter.unusedSectionVars false

section
variable {D : Type} [FP D] {w h : Nat} {m : Mesh D}

/-! ### helpers -/

theorem adm_false : adm m false = fun _ => True := by
  funext i; unfold adm; simp

theorem adm_true : adm m true = Active m := by
  funext i; unfold adm Active; simp

theorem marched {sd : List D} {t : Bool} {F' : FMM D} (G : IsGrid w h m) (hsd : sd.length = m.nNodes)
    (hok : marchDistance m sd (FMM.new m t) = .ok F') : Marched m (vals sd) (fun _ => FP.nat 0) false t F' := by
  have := marchDistance_spec G sd hsd t
  rw [hok, wp_ok] at this
  exact this

theorem marchedV {sd vel : List D} {t : Bool} {F' : FMM D} (G : IsGrid w h m) (hsd : sd.length = m.nNodes)
    (hvel : vel.length = m.nNodes) (hok : marchVelocity m sd vel (FMM.new m t) = .ok F') :
    F'.sd = sd ∧ ∃ F, Marched m (vals sd) (vals vel) true t F ∧ F'.vel = F.vel ∧ F'.status = F.status := by
  have := marchVelocity_spec G sd vel hsd hvel t
  rw [hok, wp_ok] at this
  exact this

theorem initSt_cases (f : Nat → D) (i : Nat) : initSt m f i = .frozen ∨ initSt m f i = .none := by
  unfold initSt; split_ifs <;> simp

theorem not_interface_none (G : IsGrid w h m) {f : Nat → D} {i : Nat} (hi : i < m.nNodes) (hno : ¬ OnInterface w h f i) :
    initSt m f i = .none := (initSt_cases f i).resolve_left fun h => hno ((initSt_iff G f hi).1 h)

theorem status_get {F : FMM D} (L : Lens m F) {i : Nat} (hi : i < m.nNodes) : F.status[i]? = some (F.st i) := by
  have h1 : i < F.status.length := by rw [L.s]; exact hi
  unfold FMM.st
  rw [List.getD_eq_getElem?_getD, List.getElem?_eq_getElem h1, Option.getD_some]

/-! ### C13 -/

/-- **C13** (distance): for every mesh, every values, every arithmetic, the march returns or exits with an error message. -/
theorem C13_distance_safe (G : IsGrid w h m) (sd : List D) (hsd : sd.length = m.nNodes) (t : Bool) :
    (∃ F', marchDistance m sd (FMM.new m t) = .ok F' ∧ F'.sd.length = m.nNodes) ∨
      marchDistance m sd (FMM.new m t) = .error .exit := by
  have := marchDistance_spec G sd hsd t
  cases hr : marchDistance m sd (FMM.new m t) with
  | ok F' => rw [hr, wp_ok] at this; exact .inl ⟨F', rfl, this.L.d⟩
  | error e =>
    rw [hr, wp_error] at this
    rcases this with h1 | ⟨_, -, _, -, h1⟩
    · exact .inr (by rw [h1.1])
    · exact .inr (by rw [h1.1])

/-- **C13** (velocity): same for the extension of velocities. -/
theorem C13_velocity_safe (G : IsGrid w h m) (sd vel : List D) (hsd : sd.length = m.nNodes) (hvel : vel.length = m.nNodes)
    (t : Bool) :
    (∃ F', marchVelocity m sd vel (FMM.new m t) = .ok F' ∧ F'.sd.length = m.nNodes ∧ F'.vel.length = m.nNodes) ∨
      marchVelocity m sd vel (FMM.new m t) = .error .exit := by
  have := marchVelocity_spec G sd vel hsd hvel t
  cases hr : marchVelocity m sd vel (FMM.new m t) with
  | ok F' =>
    rw [hr, wp_ok] at this
    obtain ⟨h1, F, hF, h2, -⟩ := this
    exact .inl ⟨F', rfl, by rw [h1]; exact hsd, by rw [h2]; exact hF.L.v hF.isV⟩
  | error e =>
    rw [hr, wp_error] at this
    rcases this with h1 | ⟨_, -, _, -, h1⟩
    · exact .inr (by rw [h1.1])
    · exact .inr (by rw [h1.1])

/-- A mesh and values the theorems apply to: 1 × 1 cells, doubles. -/
example : ∃ m : Mesh Float, IsGrid 1 1 m ∧ ([1, -1, 2, 3] : List Float).length = m.nNodes := by
  obtain ⟨m, hm⟩ := C01_new_succeeds (D := Float) (w := 1) (h := 1) ⟨by norm_num, by norm_num, by norm_num⟩
  have G := new_grid ⟨by norm_num, by norm_num, by norm_num⟩ hm
  exact ⟨m, G, by rw [G.nNodes]; rfl⟩

/-! ### C14 -/

/-- **C14**: reinitialisation fails exactly for values without an interface.  The debugging switch adds consistency
checks of the heap, which pass for ordered numbers. -/
theorem C14_exit_iff (G : IsGrid w h m) (sd : List D) (hsd : sd.length = m.nNodes) (t : Bool) (ht : t = false ∨ TotalCmp D) :
    marchDistance m sd (FMM.new m t) = .error .exit ↔ ¬ HasInterface w h (vals sd) := by
  have := marchDistance_spec G sd hsd t
  cases hr : marchDistance m sd (FMM.new m t) with
  | ok F' =>
    rw [hr, wp_ok] at this
    simp only [reduceCtorEq, false_iff, not_not]
    exact (hasInterface_iff G _).1 this.interface
  | error e =>
    rw [hr, wp_error] at this
    rcases this with ⟨rfl, h2⟩ | ⟨_, -, _, -, -, h1 | h1⟩
    · simp only [true_iff]
      exact fun h => h2 ((hasInterface_iff G _).2 h)
    · cases h1.1
    · rcases ht with rfl | ht
      · cases h1.1
      · exact absurd ht h1.2

/-- **C14** (velocity): the extension of velocities fails only if there is no interface, or if on the way a node that is about to become final has no final neighbour to
take a velocity from: the weights, which are the differences between its value and theirs, add up to zero. -/
theorem C14_velocity_exit_only (G : IsGrid w h m) (sd vel : List D) (hsd : sd.length = m.nNodes) (hvel : vel.length = m.nNodes)
    (t : Bool) (ht : t = false ∨ TotalCmp D) (he : marchVelocity m sd vel (FMM.new m t) = .error .exit) (hI : HasInterface w h (vals sd)) :
    ∃ s0 : AS D, (∀ i, i < m.nNodes → s0.st i = initSt m (vals sd) i ∧ s0.sd i = initSd m (vals sd) i ∧ s0.vel i = vals vel i) ∧
      ∃ C : Nat → D, (∀ i, i < m.nNodes → C i = vals sd i) ∧ Stuck m C true (adm m true) s0 := by
  have := marchVelocity_spec G sd vel hsd hvel t
  rw [he, wp_error] at this
  rcases this with ⟨-, h2⟩ | ⟨s0, h0, C, hC, -, h1 | h1⟩
  · exact absurd ((hasInterface_iff G _).2 hI) h2
  · exact ⟨s0, h0, C, hC, h1⟩
  · rcases ht with rfl | ht
    · cases h1.1
    · exact absurd ht h1.2

/-- **C14** (velocity): the extension also fails if there is no interface. -/
theorem C14_velocity_exit (G : IsGrid w h m) (sd vel : List D) (hsd : sd.length = m.nNodes) (hvel : vel.length = m.nNodes)
    (t : Bool) (hno : ¬ HasInterface w h (vals sd)) : marchVelocity m sd vel (FMM.new m t) = .error .exit := by
  rcases C13_velocity_safe G sd vel hsd hvel t with ⟨F', h1, -⟩ | h1
  · obtain ⟨-, F, hF, -⟩ := marchedV G hsd hvel h1
    exact absurd ((hasInterface_iff G _).1 hF.interface) hno
  · exact h1

/-- Both outcomes occur. -/
example : HasInterface (D := ℝ) 1 1 (vals [1, -1, 2, 3]) ∧ ¬ HasInterface (D := ℝ) 1 1 (vals [1, 1, 2, 3]) := by
  constructor
  · refine ⟨0, by norm_num, .inr ⟨1, .inl ⟨0, 1, 0, by norm_num, by norm_num, by norm_num, rfl, rfl, .inl rfl⟩, ?_⟩⟩
    simp [Opposite, vals]
  · have hpos : ∀ i, 0 ≤ vals ([1, 1, 2, 3] : List ℝ) i := by
      intro i
      unfold vals
      match i with
      | 0 | 1 | 2 | 3 => simp
      | i + 4 => simp
    rintro ⟨i, hi, h0 | ⟨n, -, hn⟩⟩
    · have : i = 0 ∨ i = 1 ∨ i = 2 ∨ i = 3 := by omega
      rcases this with rfl | rfl | rfl | rfl <;> simp [vals] at h0
    · have h1 : vals ([1, 1, 2, 3] : List ℝ) i * vals ([1, 1, 2, 3] : List ℝ) n < 0 := by simpa [Opposite] using hn
      exact absurd h1 (not_lt.2 (mul_nonneg (hpos i) (hpos n)))

/-! ### C15 -/

/-- **C15**: after a distance march every node is final.  The march is a run of the abstract machine of `Verif/Spec/FMM.lean`
from the state in which exactly the interface nodes are final; in that run nothing happens to interface nodes, and every
other node is discovered once, later becomes final once, and is not touched afterwards. -/
theorem C15_every_node_once {sd : List D} {t : Bool} {F' : FMM D} (G : IsGrid w h m) (hsd : sd.length = m.nNodes)
    (hok : marchDistance m sd (FMM.new m t) = .ok F') :
    ∃ (s0 s' : AS D) (C : Nat → D) (l : List Event), Run m C false (fun _ => True) s0 l s' ∧
      ∀ i, i < m.nNodes → C i = vals sd i ∧ vals F'.sd i = s'.sd i ∧ F'.status[i]? = some .frozen ∧ s'.st i = .frozen ∧
        (OnInterface w h (vals sd) i → s0.st i = .frozen ∧ .discover i ∉ l ∧ .estimate i ∉ l ∧ .freeze i ∉ l) ∧
        (¬ OnInterface w h (vals sd) i → s0.st i = .none ∧ s0.sd i = vals sd i ∧
          l.count (.discover i) = 1 ∧ l.count (.freeze i) = 1 ∧
          ∀ l1 l2, l = l1 ++ .freeze i :: l2 → .discover i ∈ l1 ∧ .estimate i ∉ l2) := by
  have M := marched G hsd hok
  obtain ⟨s0, h0, C, hC, l, r⟩ := M.steps
  have hst : ∀ i, i < m.nNodes → F'.st i = .frozen := by
    obtain ⟨i0, hi0, hf0⟩ := M.interface
    refine grid_connected G (fun i => F'.st i = .frozen) ?_ hi0 (r.frozen ((h0 i0 hi0).1.trans hf0)).1
    intro i hi hf j hj hne
    have hlt := FMM.nb_lt G hi hj hne
    have h1 := M.noTrial _ hlt
    have h2 : F'.st (nb m i j) ≠ .masked := r.masked (by
      rw [(h0 _ hlt).1]; rcases initSt_cases (m := m) (vals sd) (nb m i j) with h | h <;> rw [h] <;> simp)
    cases hs : F'.st (nb m i j) with
    | none =>
      have hj' := opp_lt hj
      have e := nb_opp G hi hj hne
      exact (M.closed _ hlt hs (by rw [adm_false]; trivial) (opp j) hj' (by rw [e]; exact hi.ne) (by rw [e]; exact hf)).elim
    | frozen => rfl
    | trial => exact absurd hs h1
    | masked => exact absurd hs h2
  rw [adm_false] at r
  refine ⟨s0, F'.abs, C, l, r, fun i hi => ⟨hC i hi, rfl, by rw [status_get M.L hi, hst i hi], hst i hi, fun ho => ?_, fun hno => ?_⟩⟩
  · have hf : s0.st i = .frozen := (h0 i hi).1.trans ((initSt_iff G _ hi).2 ho)
    exact ⟨hf, r.final hf⟩
  · have hn : initSt m (vals sd) i = .none := not_interface_none G hi hno
    have hs : s0.st i = .none := (h0 i hi).1.trans hn
    have e1 : s0.sd i = vals sd i := by
      rw [(h0 i hi).2.1]
      unfold initSt at hn
      unfold initSd
      split_ifs at hn with hc
      push Not at hc
      split_ifs <;> simp_all
    refine ⟨hs, e1, ?_, ?_, ?_⟩
    · rw [r.count_discover i, if_pos]
      exact ⟨hs, by show F'.st i ≠ _; rw [hst i hi]; simp⟩
    · rw [r.count_freeze i, if_pos]
      exact ⟨by rw [hs]; simp, hst i hi⟩
    · intro l1 l2 hl
      obtain ⟨s1, r1, r2⟩ := r.split l1 (.freeze i :: l2) hl
      obtain ⟨s2, r3, r4⟩ := r2.split [.freeze i] l2 rfl
      have hm := r3.count_freeze i
      rw [List.count_cons_self, List.count_nil] at hm
      have hfr : s2.st i = .frozen := by
        by_contra hc
        rw [if_neg (fun h => hc h.2)] at hm
        omega
      refine ⟨?_, (r4.final hfr).2.1⟩
      have hc := r1.count_discover i
      have hs1 : s1.st i ≠ .none := by
        cases r3.single rfl with | freeze n hn hs => rw [hs]; simp
      rw [if_pos ⟨hs, hs1⟩] at hc
      exact List.count_pos_iff.1 (by omega)

end

/-! ### C16 -/

section
variable {w h : Nat} {m : Mesh ℝ} {sd : List ℝ} {t : Bool} {F' : FMM ℝ}

theorem interface_value (G : IsGrid w h m) (hsd : sd.length = m.nNodes)
    (hok : marchDistance m sd (FMM.new m t) = .ok F') {i : Nat} (hi : i < m.nNodes) (ho : OnInterface w h (vals sd) i) :
    vals F'.sd i = initSd m (vals sd) i := by
  have M := marched G hsd hok
  obtain ⟨s0, h0, C, hC, l, r⟩ := M.steps
  have hf : s0.st i = .frozen := (h0 i hi).1.trans ((initSt_iff G _ hi).2 ho)
  exact (r.frozen hf).2.1.trans (h0 i hi).2.1

/-- **C16** (zero): zero nodes stay zero. -/
theorem C16_zero (G : IsGrid w h m) (hsd : sd.length = m.nNodes) (hok : marchDistance m sd (FMM.new m t) = .ok F')
    {i : Nat} (hi : i < m.nNodes) (h0 : vals sd i = 0) : vals F'.sd i = 0 := by
  classical
  rw [interface_value G hsd hok hi (.inl (by simpa using h0)), initSd_real G _ hi, if_pos h0]

/-- **C16** (value): a node next to a sign change gets `± 1/√(1/dx² + 1/dy²)`, where `dx`, `dy` are the least distances to
a crossing along the axes (terms without crossing are left out) and the sign is its own. -/
theorem C16_value (G : IsGrid w h m) (hsd : sd.length = m.nNodes) (hok : marchDistance m sd (FMM.new m t) = .ok F')
    {i n : Nat} (ha : Adj w h i n) (hs : vals sd i * vals sd n < 0) :
    vals F'.sd i = (if vals sd i < 0 then -1 else 1) *
      (1 / Real.sqrt (invSq (crossings (HAdj w h) (vals sd) i) + invSq (crossings (VAdj w h) (vals sd) i))) := by
  classical
  have hi : i < m.nNodes := by rw [G.nNodes]; exact (adj_lt ha).1
  have hne : vals sd i ≠ 0 := fun h0 => by rw [h0] at hs; simp at hs
  rw [interface_value G hsd hok hi (.inr ⟨n, ha, by unfold Opposite; simpa using hs⟩), initSd_real G _ hi, if_neg hne,
    if_pos ⟨n, ha, hs⟩, borderDist_eq G _ hi]
  split_ifs <;> simp

/-- **C16** (bounds): the magnitude is positive, below one, at most the distance of every crossing next to the node; the
side is kept. -/
theorem C16_bounds (G : IsGrid w h m) (hsd : sd.length = m.nNodes) (hok : marchDistance m sd (FMM.new m t) = .ok F')
    {i n : Nat} (ha : Adj w h i n) (hs : vals sd i * vals sd n < 0) :
    SameSide (vals sd i) (vals F'.sd i) ∧ 0 < |vals F'.sd i| ∧ |vals F'.sd i| ≤ vals sd i / (vals sd i - vals sd n) ∧
      |vals F'.sd i| < 1 := by
  classical
  have hi : i < m.nNodes := by rw [G.nNodes]; exact (adj_lt ha).1
  have ho : OnInterface w h (vals sd) i := .inr ⟨n, ha, by unfold Opposite; simpa using hs⟩
  have hne : vals sd i ≠ 0 := fun h0 => by rw [h0] at hs; simp at hs
  rw [interface_value G hsd hok hi ho]
  refine ⟨initSd_sameSide G _ hi, ?_⟩
  obtain ⟨b1, b2, b3⟩ := borderDist_le G (vals sd) hi ⟨n, ha, hs, rfl⟩
  have : |initSd m (vals sd) i| = borderDist m (vals sd) i := by
    rw [initSd_real G _ hi, if_neg hne, if_pos ⟨n, ha, hs⟩]
    split_ifs
    · rw [abs_neg, abs_of_pos b1]
    · rw [abs_of_pos b1]
  rw [this]
  exact ⟨b1, b2, by linarith⟩

theorem invSq_line {S : Set ℝ} {a v : ℝ} (h0 : a ≠ 0 → S.Nonempty) (h1 : ∀ d ∈ S, a ≠ 0 ∧ d = |v| / |a|) :
    invSq S = a ^ 2 / v ^ 2 := by
  unfold invSq
  by_cases ha : a = 0
  · rw [if_neg, ha]
    · simp
    · rintro ⟨d, hd⟩; exact (h1 d hd).1 ha
  · obtain ⟨d, hd⟩ := h0 ha
    have : S = {|v| / |a|} := by
      ext x
      constructor
      · intro hx; exact (h1 x hx).2
      · rintro rfl; rw [← (h1 d hd).2]; exact hd
    rw [if_pos ⟨d, hd⟩, this, csInf_singleton, div_pow, sq_abs, sq_abs, one_div_div]

theorem straight_value (G : IsGrid w h m) (hsd : sd.length = m.nNodes)
    (hok : marchDistance m sd (FMM.new m t) = .ok F') {x y : Nat} (hx : x ≤ w) (hy : y ≤ h) {a b c : ℝ}
    (hlin : ∀ x' y', x' ≤ w → y' ≤ h → (nodeNo w x' y' = nodeNo w x y ∨ Adj w h (nodeNo w x y) (nodeNo w x' y')) →
      vals sd (nodeNo w x' y') = a * x' + b * y' + c)
    (hab : a ≠ 0 ∨ b ≠ 0)
    (hH : a ≠ 0 → ∃ n, HAdj w h (nodeNo w x y) n ∧ vals sd (nodeNo w x y) * vals sd n < 0)
    (hV : b ≠ 0 → ∃ n, VAdj w h (nodeNo w x y) n ∧ vals sd (nodeNo w x y) * vals sd n < 0) :
    |vals F'.sd (nodeNo w x y)| = |a * x + b * y + c| / Real.sqrt (a ^ 2 + b ^ 2) := by
  have hv0 := hlin x y hx hy (.inl rfl)
  have hcr : ∃ n, Adj w h (nodeNo w x y) n ∧ vals sd (nodeNo w x y) * vals sd n < 0 := by
    rcases hab with h1 | h1
    · obtain ⟨n, h2, h3⟩ := hH h1; exact ⟨n, .inl h2, h3⟩
    · obtain ⟨n, h2, h3⟩ := hV h1; exact ⟨n, .inr h2, h3⟩
  obtain ⟨n0, ha0, hs0⟩ := hcr
  have hval := C16_value G hsd hok ha0 hs0
  have hne : vals sd (nodeNo w x y) ≠ 0 := fun h0 => by rw [h0] at hs0; simp at hs0
  have key : ∀ (u v k e : ℝ), u * v < 0 → v = u + k * e → (e = 1 ∨ e = -1) → k ≠ 0 ∧ u / (u - v) = |u| / |k| := by
    intro u v k e huv hv he
    have hke : k * e ≠ 0 := by
      intro h0
      rw [h0, add_zero] at hv
      rw [hv] at huv
      nlinarith [mul_self_nonneg u]
    have hk : k ≠ 0 := fun h0 => hke (by rw [h0, zero_mul])
    refine ⟨hk, ?_⟩
    have hb := (crossing_bounds huv).1
    rw [← abs_of_pos hb, abs_div, hv]
    congr 1
    rw [show u - (u + k * e) = -(k * e) by ring, abs_neg, abs_mul]
    rcases he with rfl | rfl <;> simp
  have eH : invSq (crossings (HAdj w h) (vals sd) (nodeNo w x y)) = a ^ 2 / vals sd (nodeNo w x y) ^ 2 := by
    refine invSq_line (fun h1 => ?_) ?_
    · obtain ⟨n, h2, h3⟩ := hH h1; exact ⟨_, n, h2, h3, rfl⟩
    · rintro d ⟨n, hadj, hneg, rfl⟩
      obtain ⟨x1, x2, y1, l1, l2, l3, e1, rfl, h5⟩ := hadj
      obtain ⟨rfl, rfl⟩ := (nodeNo_inj hx l1).1 e1
      have hn := hlin x2 y l2 hy (.inr (.inl ⟨x, x2, y, hx, l2, hy, rfl, rfl, h5⟩))
      refine key _ _ a ((x2 : ℝ) - x) hneg (by rw [hn, hv0]; ring) ?_
      rcases h5 with rfl | rfl
      · left; push_cast; ring
      · right; push_cast; ring
  have eV : invSq (crossings (VAdj w h) (vals sd) (nodeNo w x y)) = b ^ 2 / vals sd (nodeNo w x y) ^ 2 := by
    refine invSq_line (fun h1 => ?_) ?_
    · obtain ⟨n, h2, h3⟩ := hV h1; exact ⟨_, n, h2, h3, rfl⟩
    · rintro d ⟨n, hadj, hneg, rfl⟩
      obtain ⟨x1, y1, y2, l1, l2, l3, e1, rfl, h5⟩ := hadj
      obtain ⟨rfl, rfl⟩ := (nodeNo_inj hx l1).1 e1
      have hn := hlin x y2 hx l3 (.inr (.inr ⟨x, y, y2, hx, hy, l3, rfl, rfl, h5⟩))
      refine key _ _ b ((y2 : ℝ) - y) hneg (by rw [hn, hv0]; ring) ?_
      rcases h5 with rfl | rfl
      · left; push_cast; ring
      · right; push_cast; ring
  have hS : 0 < a ^ 2 + b ^ 2 := by
    rcases hab with h1 | h1 <;> positivity
  rw [hval, eH, eV, ← add_div, abs_mul, Real.sqrt_div hS.le, Real.sqrt_sq_eq_abs, one_div_div, ← hv0]
  rw [abs_of_nonneg (show 0 ≤ |vals sd (nodeNo w x y)| / Real.sqrt (a ^ 2 + b ^ 2) by positivity)]
  split_ifs <;> simp

/-- **C16** (straight interface): if the level set is the linear function `a x + b y + c` at the node and its neighbours,
and the line crosses an adjacent edge along every axis on which it is not constant, the magnitude is the Euclidean distance
of the node to the line. -/
theorem C16_straight_line (G : IsGrid w h m) (hsd : sd.length = m.nNodes)
    (hok : marchDistance m sd (FMM.new m t) = .ok F') {x y : Nat} (hx : x ≤ w) (hy : y ≤ h) {a b c : ℝ}
    (hlin : ∀ x' y', x' ≤ w → y' ≤ h → (nodeNo w x' y' = nodeNo w x y ∨ Adj w h (nodeNo w x y) (nodeNo w x' y')) →
      vals sd (nodeNo w x' y') = a * x' + b * y' + c)
    (hab : a ≠ 0 ∨ b ≠ 0)
    (hH : a ≠ 0 → ∃ n, HAdj w h (nodeNo w x y) n ∧ vals sd (nodeNo w x y) * vals sd n < 0)
    (hV : b ≠ 0 → ∃ n, VAdj w h (nodeNo w x y) n ∧ vals sd (nodeNo w x y) * vals sd n < 0) :
    IsLeast {r | ∃ p q : ℝ, a * p + b * q + c = 0 ∧ r = Real.sqrt ((p - x) ^ 2 + (q - y) ^ 2)}
      |vals F'.sd (nodeNo w x y)| := by
  rw [straight_value G hsd hok hx hy hlin hab hH hV]
  have hS : 0 < a ^ 2 + b ^ 2 := by
    rcases hab with h1 | h1 <;> positivity
  have hsq := Real.sqrt_pos.2 hS
  constructor
  · refine ⟨x - a * (a * x + b * y + c) / (a ^ 2 + b ^ 2), y - b * (a * x + b * y + c) / (a ^ 2 + b ^ 2), ?_, ?_⟩
    · field_simp; ring
    · rw [show ((x : ℝ) - a * (a * x + b * y + c) / (a ^ 2 + b ^ 2) - x) ^ 2 +
        (y - b * (a * x + b * y + c) / (a ^ 2 + b ^ 2) - y) ^ 2 = (a * x + b * y + c) ^ 2 / (a ^ 2 + b ^ 2) by
        field_simp; ring]
      rw [Real.sqrt_div (sq_nonneg _), Real.sqrt_sq_eq_abs]
  · rintro r ⟨p, q, hpq, rfl⟩
    rw [div_le_iff₀ hsq, ← Real.sqrt_mul (by positivity), ← Real.sqrt_sq_eq_abs]
    apply Real.sqrt_le_sqrt
    have e : a * x + b * y + c = -(a * (p - x) + b * (q - y)) := by linear_combination hpq
    rw [e]
    nlinarith [sq_nonneg (a * (q - y) - b * (p - x))]

/-- The hypotheses of `C16_straight_line` are met by the values of `x + y - 1/2` on a 1 × 1 mesh at the corner `(0, 0)`, and
the march succeeds on these values. -/
example : ∃ (m : Mesh ℝ) (F' : FMM ℝ), IsGrid 1 1 m ∧ marchDistance m [-1/2, 1/2, 1/2, 3/2] (FMM.new m false) = .ok F' ∧
    HAdj 1 1 (nodeNo 1 0 0) 1 ∧ vals ([-1/2, 1/2, 1/2, 3/2] : List ℝ) (nodeNo 1 0 0) * vals [-1/2, 1/2, 1/2, 3/2] 1 < 0 ∧
    VAdj 1 1 (nodeNo 1 0 0) 2 ∧ vals ([-1/2, 1/2, 1/2, 3/2] : List ℝ) (nodeNo 1 0 0) * vals [-1/2, 1/2, 1/2, 3/2] 2 < 0 ∧
    ∀ x' y', x' ≤ 1 → y' ≤ 1 → vals ([-1/2, 1/2, 1/2, 3/2] : List ℝ) (nodeNo 1 x' y') = 1 * x' + 1 * y' + (-1/2) := by
  obtain ⟨m, hm⟩ := C01_new_succeeds (D := ℝ) (w := 1) (h := 1) ⟨by norm_num, by norm_num, by norm_num⟩
  have G := new_grid ⟨by norm_num, by norm_num, by norm_num⟩ hm
  have a1 : HAdj 1 1 (nodeNo 1 0 0) 1 := ⟨0, 1, 0, by norm_num, by norm_num, by norm_num, rfl, rfl, .inl rfl⟩
  have a2 : VAdj 1 1 (nodeNo 1 0 0) 2 := ⟨0, 0, 1, by norm_num, by norm_num, by norm_num, rfl, rfl, .inl rfl⟩
  have p1 : vals ([-1/2, 1/2, 1/2, 3/2] : List ℝ) (nodeNo 1 0 0) * vals [-1/2, 1/2, 1/2, 3/2] 1 < 0 := by
    norm_num [nodeNo, vals]
  have hI : HasInterface 1 1 (vals ([-1/2, 1/2, 1/2, 3/2] : List ℝ)) :=
    ⟨0, by norm_num, .inr ⟨1, .inl a1, by unfold Opposite; simpa [nodeNo] using p1⟩⟩
  have hl : ([-1/2, 1/2, 1/2, 3/2] : List ℝ).length = m.nNodes := by rw [G.nNodes]; rfl
  rcases C13_distance_safe G _ hl false with ⟨F', h1, -⟩ | h1
  · refine ⟨m, F', G, h1, a1, p1, a2, by norm_num [nodeNo, vals], ?_⟩
    intro x' y' hx hy
    have : (x' = 0 ∨ x' = 1) ∧ (y' = 0 ∨ y' = 1) := by omega
    rcases this with ⟨rfl | rfl, rfl | rfl⟩ <;> norm_num [nodeNo, vals]
  · exact absurd hI ((C14_exit_iff G _ hl false (.inl rfl)).1 h1)

/-! ### C17 -/

/-- **C17** (partial): no node changes side, unless some node off the interface has a positive value not above the machine
epsilon (then the outside root is taken, see `C17_side_can_change`), or in some state of the run the update of some node
uses a second value from the other side that is more than four times the first (see C21).  Missing: the claim as stated,
which is false. -/
theorem C17_side_kept_partial (G : IsGrid w h m) (hsd : sd.length = m.nNodes)
    (hok : marchDistance m sd (FMM.new m t) = .ok F') :
    (∀ i, i < m.nNodes → SameSide (vals sd i) (vals F'.sd i)) ∨
    (∃ i, i < m.nNodes ∧ ¬ OnInterface w h (vals sd) i ∧ 0 < vals sd i ∧ vals sd i ≤ 1 / 2 ^ 52) ∨
    ∃ (s0 s1 : AS ℝ) (C : Nat → ℝ) (l1 : List Event) (n i : Nat),
      (∀ i, i < m.nNodes → C i = vals sd i ∧ (s0.st i = .frozen ↔ OnInterface w h (vals sd) i)) ∧
      Run m C false (fun _ => True) s0 l1 s1 ∧ n < m.nNodes ∧ s1.st n ≠ .frozen ∧ StaleAt m s1 n i := by
  have M := marched G hsd hok
  obtain ⟨s0, h0, C, hC, l, r⟩ := M.steps
  rw [adm_false] at r
  by_contra hcon
  push Not at hcon
  obtain ⟨⟨i, hi, hbad⟩, h2, h3⟩ := hcon
  have hst : ∀ i, i < m.nNodes → (s0.st i = .frozen ↔ OnInterface w h (vals sd) i) := fun i hi => by
    rw [(h0 i hi).1, initSt_iff G _ hi]
  refine hbad (r.side G hC (fun i hi => ?_) (fun i hi => (hst i hi).2) (fun i hi hno hp => ?_) ?_ i hi)
  · rw [(h0 i hi).2.1]; exact initSd_sameSide G _ hi
  · have := h2 i hi hno hp
    have e : (doubleEpsilon : ℝ) = 1 / 2 ^ 52 := by unfold doubleEpsilon; norm_num
    rw [e]; exact this
  · intro l1 s1 r1 n hn hs i hi' hS
    exact h3 s0 s1 C l1 n i (fun i hi => ⟨hC i hi, hst i hi⟩) r1 hn hs hS

/-- **C17** (partial): interface nodes never change side. -/
theorem C17_interface_side_partial (G : IsGrid w h m) (hsd : sd.length = m.nNodes)
    (hok : marchDistance m sd (FMM.new m t) = .ok F') {i : Nat} (hi : i < m.nNodes) (ho : OnInterface w h (vals sd) i) :
    SameSide (vals sd i) (vals F'.sd i) := by
  rw [interface_value G hsd hok hi ho]
  exact initSd_sameSide G _ hi

/-- In the corner of the 1 × 1 mesh whose other nodes are on the boundary, a value other than zero but not above the machine epsilon ends up
negative. -/
theorem corner_negative (G : IsGrid 1 1 m) {v : ℝ} (hv0 : v ≠ 0) (hv1 : v ≤ 1 / 2 ^ 52) :
    ∃ F' : FMM ℝ, marchDistance m [0, 0, 0, v] (FMM.new m false) = .ok F' ∧ vals F'.sd 3 < 0 := by
  have hN : m.nNodes = 4 := G.nNodes
  have hl : ([0, 0, 0, v] : List ℝ).length = m.nNodes := by rw [hN]; rfl
  have hI : HasInterface 1 1 (vals ([0, 0, 0, v] : List ℝ)) := ⟨0, by norm_num, .inl (by simp [vals])⟩
  rcases C13_distance_safe G _ hl false with ⟨F', h1, -⟩ | h1
  swap
  · exact absurd hI ((C14_exit_iff G _ hl false (.inl rfl)).1 h1)
  refine ⟨F', h1, ?_⟩
  obtain ⟨s0, s', C, l, r, hall⟩ := C15_every_node_once G hl h1
  have n3 : ∀ j, nb m 3 j = (neighbourhood 1 1 1 1).getD j 0 := fun j => nb_value G (x := 1) (y := 1) (by norm_num) (by norm_num)
  have n2 : ∀ j, nb m 2 j = (neighbourhood 1 1 0 1).getD j 0 := fun j => nb_value G (x := 0) (y := 1) (by norm_num) (by norm_num)
  have n1 : ∀ j, nb m 1 j = (neighbourhood 1 1 1 0).getD j 0 := fun j => nb_value G (x := 1) (y := 0) (by norm_num) (by norm_num)
  have hno : ¬ OnInterface 1 1 (vals ([0, 0, 0, v] : List ℝ)) 3 := by
    rintro (h0 | ⟨n, ha, hn⟩)
    · exact hv0 (by simpa [vals] using h0)
    · obtain ⟨hne, j, hj, rfl⟩ := (adj_iff G (by omega)).1 ha
      have : nb m 3 j = 2 ∨ nb m 3 j = 1 := by
        rw [n3]
        rw [n3, hN] at hne
        have : j = 0 ∨ j = 1 ∨ j = 2 ∨ j = 3 := by omega
        rcases this with rfl | rfl | rfl | rfl <;> simp [neighbourhood, nodeNoOr, nodeNo] at hne ⊢
      unfold Opposite at hn
      rcases this with h | h <;> rw [h] at hn <;> simp [vals] at hn
  obtain ⟨hC, hv, -, hs', -, h3⟩ := hall 3 (by omega)
  obtain ⟨hs3, -⟩ := h3 hno
  obtain ⟨l1, l2, s1, -, r1, r2, hnf, hval⟩ := r.value hs3 (by rw [hs']; simp)
  have hz : ∀ i, i < 3 → s1.st i = .frozen ∧ s1.sd i = 0 := by
    intro i hi
    have hv0 : vals ([0, 0, 0, v] : List ℝ) i = 0 := by
      have : i = 0 ∨ i = 1 ∨ i = 2 := by omega
      rcases this with rfl | rfl | rfl <;> simp [vals]
    obtain ⟨-, hv, -, -, ho, -⟩ := hall i (by omega)
    obtain ⟨hf, -⟩ := ho (.inl (by simpa using hv0))
    have e := (r1.frozen hf).1
    refine ⟨e, ?_⟩
    rw [← (r2.frozen e).2.1, ← hv]
    exact C16_zero G hl h1 (by omega) hv0
  have hmax := maxVal_pos
  have a0 : axisCode m s1 3 0 = some (0, none) := by
    simp [axisCode, upwindCode, sideOf, Side.only, finalValue, n3, n2, neighbourhood, nodeNoOr, nodeNo, hN, hz, hmax, Side.usable]
  have a1 : axisCode m s1 3 1 = some (0, none) := by
    simp [axisCode, upwindCode, sideOf, Side.only, finalValue, n3, n1, neighbourhood, nodeNoOr, nodeNo, hN, hz, hmax, Side.usable]
  have he : ∀ T, eik m s1 3 T = T ^ 2 + T ^ 2 := by
    intro T; unfold eik; rw [a0, a1]; simp [diffSq]
  have hsq : Real.sqrt (1 / 2) ^ 2 = 1 / 2 := Real.sq_sqrt (by norm_num)
  have hpos : 0 < Real.sqrt (1 / 2) := Real.sqrt_pos.2 (by norm_num)
  have hroot : eik m s1 3 (-Real.sqrt (1 / 2)) = 1 := by rw [he, neg_sq, hsq]; norm_num
  obtain ⟨-, -, h5⟩ := updateV_solves (m := m) (s := s1) C 3 ⟨Real.sqrt (1 / 2), -Real.sqrt (1 / 2), by
    intro h; linarith, by rw [he, hsq]; norm_num, hroot⟩
  have := h5 (by rw [hC]; unfold doubleEpsilon; norm_num [vals]; norm_num at hv1; exact hv1) _ hroot
  rw [hv, hval]
  linarith

/-- **C17** (negation): reinitialisation can change the side of a node.  On a 1 × 1 mesh with values `0, 0, 0, 2⁻⁶⁰` the
march succeeds and the last node ends up negative. -/
theorem C17_side_can_change : ∃ (m : Mesh ℝ) (F' : FMM ℝ), IsGrid 1 1 m ∧
    marchDistance m [0, 0, 0, 1 / 2 ^ 60] (FMM.new m false) = .ok F' ∧
    0 < vals ([0, 0, 0, 1 / 2 ^ 60] : List ℝ) 3 ∧ vals F'.sd 3 < 0 := by
  obtain ⟨m, hm⟩ := C01_new_succeeds (D := ℝ) (w := 1) (h := 1) ⟨by norm_num, by norm_num, by norm_num⟩
  have G := new_grid ⟨by norm_num, by norm_num, by norm_num⟩ hm
  obtain ⟨F', h1, h2⟩ := corner_negative G (v := 1 / 2 ^ 60) (by norm_num) (by norm_num)
  exact ⟨m, F', G, h1, by norm_num [vals], h2⟩

end

/-! ### C18 -/

section
variable {D : Type} [FP D] {w h : Nat} {m : Mesh D}

/-- **C18**: the extension of velocities returns the signed distances as they were, and changes the velocity of no interface
node, of no inactive node, and more generally of no node that is not reachable from the interface through active nodes. -/
theorem C18_no_side_effects {sd vel : List D} {t : Bool} {F' : FMM D} (G : IsGrid w h m) (hsd : sd.length = m.nNodes)
    (hvel : vel.length = m.nNodes) (hok : marchVelocity m sd vel (FMM.new m t) = .ok F') :
    F'.sd = sd ∧ ∀ i, i < m.nNodes →
      (OnInterface w h (vals sd) i ∨ ¬ Active m i ∨ ¬ Fed w h (OnInterface w h (vals sd)) (Active m) i) →
      vals F'.vel i = vals vel i := by
  obtain ⟨h1, F, M, h2, h3⟩ := marchedV G hsd hvel hok
  refine ⟨h1, fun i hi hc => ?_⟩
  obtain ⟨s0, h0, C, hC, l, r⟩ := M.steps
  rw [adm_true] at r
  rw [h2]
  have hv : F.abs.vel i = vals F.vel i := rfl
  rw [← hv, ← (h0 i hi).2.2]
  have hfed := Run.fed (onI := OnInterface w h (vals sd)) G r (fun k hk => by
    rw [(h0 k hk).1]
    rcases initSt_cases (m := m) (vals sd) k with h | h
    · exact .inr ⟨h, (initSt_iff G _ hk).1 h⟩
    · exact .inl h)
  by_cases ho : OnInterface w h (vals sd) i
  · exact (r.frozen ((h0 i hi).1.trans ((initSt_iff G _ hi).2 ho))).2.2
  · have hs : s0.st i = .none := (h0 i hi).1.trans (not_interface_none G hi ho)
    rcases hc with hc | hc | hc
    · exact absurd hc ho
    · exact (r.vel_frame hs hc).2
    · -- never discovered
      have hend : F.abs.st i = .none := by
        by_contra hne
        exact hc (hfed i hi hne)
      exact r.vel_none hend

/-- **C18** (success): if every active node is on the interface the extension succeeds. -/
theorem C18_nothing_to_extend {sd vel : List D} (t : Bool) (G : IsGrid w h m) (hsd : sd.length = m.nNodes)
    (hvel : vel.length = m.nNodes) (hI : HasInterface w h (vals sd))
    (hact : ∀ i, i < m.nNodes → Active m i → OnInterface w h (vals sd) i) : ∃ F', marchVelocity m sd vel (FMM.new m t) = .ok F' := by
  refine FMM.marchVelocity_still G sd vel hsd hvel t ((hasInterface_iff G _).2 hI) fun i hi ha => ?_
  exact (initSt_iff G _ hi).2 (hact i hi ha)

/-- **C18** (reach): exactly the nodes reachable from the interface through active nodes are visited. -/
theorem C18_reach {sd vel : List D} {t : Bool} {F' : FMM D} (G : IsGrid w h m) (hsd : sd.length = m.nNodes)
    (hvel : vel.length = m.nNodes) (hok : marchVelocity m sd vel (FMM.new m t) = .ok F') {i : Nat} (hi : i < m.nNodes) :
    (F'.status[i]? = some .frozen ↔ Fed w h (OnInterface w h (vals sd)) (Active m) i) ∧
    (F'.status[i]? = some .none ↔ ¬ Fed w h (OnInterface w h (vals sd)) (Active m) i) := by
  obtain ⟨h1, F, M, h2, h3⟩ := marchedV G hsd hvel hok
  obtain ⟨s0, h0, C, hC, l, r⟩ := M.steps
  rw [adm_true] at r
  have hlt : ∀ k, OnInterface w h (vals sd) k → k < m.nNodes ∨ ¬ k < m.nNodes := fun k _ => em _
  rw [h3, status_get M.L hi]
  simp only [Option.some.injEq]
  have hfed := Run.fed (onI := fun k => k < m.nNodes ∧ OnInterface w h (vals sd) k) G r (fun k hk => by
    rw [(h0 k hk).1]
    rcases initSt_cases (m := m) (vals sd) k with h | h
    · exact .inr ⟨h, hk, (initSt_iff G _ hk).1 h⟩
    · exact .inl h)
  have hmono : ∀ k, Fed w h (fun k => k < m.nNodes ∧ OnInterface w h (vals sd) k) (Active m) k →
      Fed w h (OnInterface w h (vals sd)) (Active m) k := by
    intro k hk
    induction hk with
    | base h => exact .base h.2
    | step _ ha hn ih => exact .step ih ha hn
  have hmono' : ∀ k, Fed w h (OnInterface w h (vals sd)) (Active m) k → k < m.nNodes →
      Fed w h (fun k => k < m.nNodes ∧ OnInterface w h (vals sd) k) (Active m) k := by
    intro k hk
    induction hk with
    | base h => exact fun hk => .base ⟨hk, h⟩
    | step _ ha hn ih =>
      intro _
      exact .step (ih (by rw [G.nNodes]; exact (adj_lt ha).1)) ha hn
  have hm : ∀ k, k < m.nNodes → F.st k ≠ .masked := fun k hk => r.masked (by
      rw [(h0 _ hk).1]; rcases initSt_cases (m := m) (vals sd) k with h | h <;> rw [h] <;> simp)
  have hconv : Fed w h (OnInterface w h (vals sd)) (Active m) i → F.st i = .frozen := by
    intro hf
    have hf := hmono' i hf hi
    rw [← adm_true] at hf
    exact (fed_frozen (f := vals sd) G (fun k hk => hk.1) M.closed M.noTrial hm
      (fun k hk ho => (r.frozen ((h0 k hk).1.trans ((initSt_iff G _ hk).2 ho.2))).1) hf).2
  have hfwd : F.st i ≠ .none → Fed w h (OnInterface w h (vals sd)) (Active m) i := fun hne => hmono i (hfed i hi hne)
  refine ⟨⟨fun hs => hfwd (by rw [hs]; simp), hconv⟩, fun hs hf => ?_, fun hf => ?_⟩
  · rw [hconv hf] at hs; cases hs
  · by_contra hne
    exact hf (hfwd hne)

end

/-! ### C19 -/

section
variable {w h : Nat} {m : Mesh ℝ}

/-- **C19**: every velocity after the extension is either the original one or lies between any bounds for the velocities of
the interface nodes. -/
theorem C19_maximum_principle {sd vel : List ℝ} {t : Bool} {F' : FMM ℝ} (G : IsGrid w h m) (hsd : sd.length = m.nNodes)
    (hvel : vel.length = m.nNodes) (hok : marchVelocity m sd vel (FMM.new m t) = .ok F') {lo hi : ℝ}
    (hb : ∀ i, i < m.nNodes → OnInterface w h (vals sd) i → lo ≤ vals vel i ∧ vals vel i ≤ hi) :
    ∀ i, i < m.nNodes →
      (Fed w h (OnInterface w h (vals sd)) (Active m) i → lo ≤ vals F'.vel i ∧ vals F'.vel i ≤ hi) ∧
      (¬ Fed w h (OnInterface w h (vals sd)) (Active m) i → vals F'.vel i = vals vel i) := by
  intro i hi'
  refine ⟨fun hf => ?_, fun hf => (C18_no_side_effects G hsd hvel hok).2 i hi' (.inr (.inr hf))⟩
  have hst := (C18_reach G hsd hvel hok hi').1.2 hf
  obtain ⟨h1, F, M, h2, h3⟩ := marchedV G hsd hvel hok
  obtain ⟨s0, h0, C, hC, l, r⟩ := M.steps
  rw [h3, status_get M.L hi'] at hst
  rw [h2]
  refine (r.bounds G (lo := lo) (hi := hi) (fun k hk hs => ?_) i hi').1 rfl (by simpa [FMM.abs] using hst)
  rw [(h0 k hk).2.2]
  exact hb k hk ((initSt_iff G _ hk).1 ((h0 k hk).1.symm.trans hs))

end

/-! ### C20, C21 -/

section
variable {w h : Nat} {m : Mesh ℝ}

/-- **C20**: in every state, the update of a node returns a solution of the discrete Eikonal equation if it has two
solutions: the larger one inside (original value above the machine epsilon), the smaller one outside.  Otherwise it returns
the previous value. -/
theorem C20_update_solves (G : IsGrid w h m) {F : FMM ℝ} (L : Lens m F) {n : Nat} (hn : n < m.nNodes) :
    ∃ T, updateNode m F n = .ok T ∧
      ((∃ T1 T2, T1 ≠ T2 ∧ eik m F.abs n T1 = 1 ∧ eik m F.abs n T2 = 1) →
        eik m F.abs n T = 1 ∧
        (1 / 2 ^ 52 < vals F.copy n → ∀ T', eik m F.abs n T' = 1 → T' ≤ T) ∧
        (¬ 1 / 2 ^ 52 < vals F.copy n → ∀ T', eik m F.abs n T' = 1 → T ≤ T')) ∧
      (¬ (∃ T1 T2, T1 ≠ T2 ∧ eik m F.abs n T1 = 1 ∧ eik m F.abs n T2 = 1) → T = vals F.sd n) := by
  have e : (doubleEpsilon : ℝ) = 1 / 2 ^ 52 := by unfold doubleEpsilon; norm_num
  refine ⟨_, updateNode_eq G L hn, fun h2 => ?_, fun h2 => updateV_keeps F.cp n h2⟩
  have := updateV_solves F.cp n h2
  rw [e] at this
  exact this

/-- **C20** (whole march): the final value of a node off the interface is its original value, or solves the discrete
Eikonal equation for a set of neighbours that are already final, with their final values; the larger solution inside, the
smaller one outside. -/
theorem C20_march_solves {sd : List ℝ} {t : Bool} {F' : FMM ℝ} (G : IsGrid w h m) (hsd : sd.length = m.nNodes)
    (hok : marchDistance m sd (FMM.new m t) = .ok F') {i : Nat} (hi : i < m.nNodes) (hno : ¬ OnInterface w h (vals sd) i) :
    vals F'.sd i = vals sd i ∨ ∃ s1 : AS ℝ, (∀ k, k < m.nNodes → s1.st k = .frozen → s1.sd k = vals F'.sd k) ∧
      s1.st i ≠ .frozen ∧ eik m s1 i (vals F'.sd i) = 1 ∧
      (1 / 2 ^ 52 < vals sd i → ∀ T, eik m s1 i T = 1 → T ≤ vals F'.sd i) ∧
      (¬ 1 / 2 ^ 52 < vals sd i → ∀ T, eik m s1 i T = 1 → vals F'.sd i ≤ T) := by
  have e : (doubleEpsilon : ℝ) = 1 / 2 ^ 52 := by unfold doubleEpsilon; norm_num
  obtain ⟨s0, s', C, l, r, hall⟩ := C15_every_node_once G hsd hok
  obtain ⟨hC, hv, -, -, -, h3⟩ := hall i hi
  obtain ⟨-, h0, -⟩ := h3 hno
  rcases r.solves i with h | ⟨l1, l2, s1, -, r1, r2, h4, h5⟩
  · left; rw [hv, h, h0]
  · right
    refine ⟨s1, fun k hk hs => ?_, h4, ?_⟩
    · rw [(hall k hk).2.1]; exact (r2.frozen hs).2.1.symm
    · rw [hv, ← hC, ← e]; exact h5

/-- **C21** (partial): the first value used along an axis is always the intended one, and so is the second whenever the
chosen direction has a usable one; only when it has none, the second value of the other direction may be used instead of
none.  Missing: the claim itself, which is false (`C21_stale_second_value`). -/
theorem C21_stencil_partial (s : AS ℝ) (n i : Nat) :
    axisCode m s n i = axisGood m s n i ∨
      ∃ d1 d2, axisGood m s n i = some (d1, none) ∧ axisCode m s n i = some (d1, some d2) := by
  unfold axisCode axisGood upwind upwindCode
  cases (sideOf m s n (2 * i)).only with
  | none => exact .inl rfl
  | some a =>
    cases (sideOf m s n (2 * i + 1)).only with
    | none => exact .inl rfl
    | some b =>
      dsimp only
      split_ifs
      · obtain ⟨b1, b2⟩ := b
        cases b2 with
        | some v => exact .inl rfl
        | none =>
          cases ha2 : a.2 with
          | none => exact .inl rfl
          | some v => exact .inr ⟨b1, v, rfl, rfl⟩
      · exact .inl rfl

/-- **C21** (negation): the second value can come from the other side.  3 × 1 mesh; node 2 has 3/4 and then 1/2 to its
left, 0 and then nothing to its right, 0 above and nothing below.  The right side is chosen (0 is nearer than 3/4) but the
1/2 of the left side is used as second value, so the result solves the wrong equation instead of `T² + T² = 1`. -/
theorem C21_stale_second_value : ∃ (m : Mesh ℝ) (F' : FMM ℝ), IsGrid 3 1 m ∧
    marchDistance m [1 / 2, 3 / 4, 1, 0, -1 / 2, -1 / 4, 0, 0] (FMM.new m false) = .ok F' ∧
    vals F'.sd 0 = 1 / 2 ∧ vals F'.sd 1 = 3 / 4 ∧ vals F'.sd 3 = 0 ∧ vals F'.sd 6 = 0 ∧
    ((3 * vals F'.sd 2 - 4 * 0 + 1 / 2) / 2) ^ 2 + (vals F'.sd 2 - 0) ^ 2 = 1 ∧
    (vals F'.sd 2 - 0) ^ 2 + (vals F'.sd 2 - 0) ^ 2 ≠ 1 := by
  obtain ⟨m, hm⟩ := C01_new_succeeds (D := ℝ) (w := 3) (h := 1) ⟨by norm_num, by norm_num, by norm_num⟩
  have G := new_grid ⟨by norm_num, by norm_num, by norm_num⟩ hm
  have hN : m.nNodes = 8 := G.nNodes
  obtain ⟨sd, hsd⟩ : ∃ sd : List ℝ, sd = [1 / 2, 3 / 4, 1, 0, -1 / 2, -1 / 4, 0, 0] := ⟨_, rfl⟩
  rw [← hsd]
  have hl : sd.length = m.nNodes := by rw [hN, hsd]; rfl
  have v0 : vals sd 0 = 1 / 2 := by rw [hsd]; simp [vals]
  have v1 : vals sd 1 = 3 / 4 := by rw [hsd]; simp [vals]
  have v2 : vals sd 2 = 1 := by rw [hsd]; simp [vals]
  have v3 : vals sd 3 = 0 := by rw [hsd]; simp [vals]
  have v4 : vals sd 4 = -1 / 2 := by rw [hsd]; simp [vals]
  have v5 : vals sd 5 = -1 / 4 := by rw [hsd]; simp [vals]
  have v6 : vals sd 6 = 0 := by rw [hsd]; simp [vals]
  have hI : HasInterface 3 1 (vals sd) := ⟨3, by norm_num, .inl (by simp [v3])⟩
  rcases C13_distance_safe G _ hl false with ⟨F', h1, -⟩ | h1
  swap
  · exact absurd hI ((C14_exit_iff G _ hl false (.inl rfl)).1 h1)
  have n0 : ∀ j, nb m 0 j = (neighbourhood 3 1 0 0).getD j 0 := fun j => nb_value G (x := 0) (y := 0) (by norm_num) (by norm_num)
  have n1 : ∀ j, nb m 1 j = (neighbourhood 3 1 1 0).getD j 0 := fun j => nb_value G (x := 1) (y := 0) (by norm_num) (by norm_num)
  have n2 : ∀ j, nb m 2 j = (neighbourhood 3 1 2 0).getD j 0 := fun j => nb_value G (x := 2) (y := 0) (by norm_num) (by norm_num)
  have n3 : ∀ j, nb m 3 j = (neighbourhood 3 1 3 0).getD j 0 := fun j => nb_value G (x := 3) (y := 0) (by norm_num) (by norm_num)
  have n6 : ∀ j, nb m 6 j = (neighbourhood 3 1 2 1).getD j 0 := fun j => nb_value G (x := 2) (y := 1) (by norm_num) (by norm_num)
  have A0 : Adj 3 1 0 4 := .inr ⟨0, 0, 1, by norm_num, by norm_num, by norm_num, rfl, rfl, .inl rfl⟩
  have A1 : Adj 3 1 1 5 := .inr ⟨1, 0, 1, by norm_num, by norm_num, by norm_num, rfl, rfl, .inl rfl⟩
  have o0 : OnInterface 3 1 (vals sd) 0 := .inr ⟨4, A0, by unfold Opposite; norm_num [v0, v4]⟩
  have o1 : OnInterface 3 1 (vals sd) 1 := .inr ⟨5, A1, by unfold Opposite; norm_num [v1, v5]⟩
  have o3 : OnInterface 3 1 (vals sd) 3 := .inl (by simp [v3])
  have o6 : OnInterface 3 1 (vals sd) 6 := .inl (by simp [v6])
  have w0 : vals F'.sd 0 = 1 / 2 := by
    rw [interface_value G hl h1 (by omega) o0]
    unfold initSd borderDist borderV crossV distSum
    norm_num [n0, neighbourhood, nodeNoOr, nodeNo, hN, v0, v1, v4]
    rw [show (4 : ℝ) = 2 ^ 2 by norm_num, Real.sqrt_sq (by norm_num)]
    norm_num
  have w1 : vals F'.sd 1 = 3 / 4 := by
    rw [interface_value G hl h1 (by omega) o1]
    unfold initSd borderDist borderV crossV distSum
    have e0 : nb m 1 0 = 0 := by rw [n1]; rfl
    have e1 : nb m 1 1 = 2 := by rw [n1]; rfl
    have e2 : nb m 1 2 = 8 := by rw [n1]; rfl
    have e3 : nb m 1 3 = 5 := by rw [n1]; rfl
    norm_num [e0, e1, e2, e3, hN, v0, v1, v2, v5]
    rw [show (16 : ℝ) = 4 ^ 2 by norm_num, Real.sqrt_sq (by norm_num), show (9 : ℝ) = 3 ^ 2 by norm_num, Real.sqrt_sq (by norm_num)]
  have w3 := C16_zero G hl h1 (by omega) v3
  have w6 := C16_zero G hl h1 (by omega) v6
  refine ⟨m, F', G, h1, w0, w1, w3, w6, ?_⟩
  have hno : ¬ OnInterface 3 1 (vals sd) 2 := by
    rintro (h0 | ⟨n, ha, hn⟩)
    · simp [v2] at h0
    · obtain ⟨hne, j, hj, rfl⟩ := (adj_iff G (by omega)).1 ha
      have : nb m 2 j = 1 ∨ nb m 2 j = 3 ∨ nb m 2 j = 6 := by
        rw [n2]
        rw [n2, hN] at hne
        have : j = 0 ∨ j = 1 ∨ j = 2 ∨ j = 3 := by omega
        rcases this with rfl | rfl | rfl | rfl <;> simp [neighbourhood, nodeNoOr, nodeNo] at hne ⊢
      unfold Opposite at hn
      rcases this with h | h | h <;> rw [h] at hn <;> norm_num [v1, v2, v3, v6] at hn
  obtain ⟨s0, s', C, l, r, hall⟩ := C15_every_node_once G hl h1
  obtain ⟨hC, hv, -, hs', -, h3⟩ := hall 2 (by omega)
  obtain ⟨hs2, -⟩ := h3 hno
  obtain ⟨l1, l2, s1, -, r1, r2, hnf, hval⟩ := r.value hs2 (by rw [hs']; simp)
  have hz : ∀ i, i < 8 → OnInterface 3 1 (vals sd) i → s1.st i = .frozen ∧ s1.sd i = vals F'.sd i := by
    intro i hi ho'
    obtain ⟨-, hv, -, -, ho, -⟩ := hall i (by omega)
    obtain ⟨hf, -⟩ := ho ho'
    have e := (r1.frozen hf).1
    exact ⟨e, by rw [← (r2.frozen e).2.1, ← hv]⟩
  obtain ⟨z0, z0'⟩ := hz 0 (by omega) o0
  obtain ⟨z1, z1'⟩ := hz 1 (by omega) o1
  obtain ⟨z3, z3'⟩ := hz 3 (by omega) o3
  obtain ⟨z6, z6'⟩ := hz 6 (by omega) o6
  rw [w0] at z0'
  rw [w1] at z1'
  rw [w3] at z3'
  rw [w6] at z6'
  have hmax := maxVal_pos
  have hmax1 : (1 : ℝ) < FP.maxVal := by
    show (1 : ℝ) < (2 - 1 / 2 ^ 52) * 2 ^ 1023
    have h1 : (1 : ℝ) ≤ 2 ^ 1023 := one_le_pow₀ (by norm_num)
    have h2 : (1 : ℝ) < 2 - 1 / 2 ^ 52 := by norm_num
    exact lt_of_lt_of_le h2 (le_mul_of_one_le_right (by linarith) h1)
  have m0 : (1 / 2 : ℝ) < FP.maxVal := by linarith
  have m1 : (3 / 4 : ℝ) < FP.maxVal := by linarith
  have s20 : sideOf m s1 2 0 = ⟨some (3 / 4), some (1 / 2)⟩ := by
    unfold sideOf finalValue
    have e1 : nb m 2 0 = 1 := by rw [n2]; rfl
    have e2 : nb m 1 0 = 0 := by rw [n1]; rfl
    rw [e1, e2, z0, z1, z0', z1', abs_of_pos (show (0 : ℝ) < 3 / 4 by norm_num), abs_of_pos (show (0 : ℝ) < 1 / 2 by norm_num),
      if_pos ⟨by omega, rfl, m1⟩, if_pos ⟨by omega, rfl, m0⟩]
  have s21 : sideOf m s1 2 1 = ⟨some 0, none⟩ := by
    unfold sideOf finalValue
    have e1 : nb m 2 1 = 3 := by rw [n2]; rfl
    have e2 : nb m 3 1 = 8 := by rw [n3]; rfl
    rw [e1, e2, z3, z3', abs_zero, if_pos ⟨by omega, rfl, hmax⟩, if_neg (by rw [hN]; tauto)]
  have s22 : sideOf m s1 2 2 = ⟨none, (sideOf m s1 2 2).second⟩ := by
    unfold sideOf finalValue
    have e1 : nb m 2 2 = 8 := by rw [n2]; rfl
    rw [e1, if_neg (by rw [hN]; tauto)]
  have s23 : sideOf m s1 2 3 = ⟨some 0, none⟩ := by
    unfold sideOf finalValue
    have e1 : nb m 2 3 = 6 := by rw [n2]; rfl
    have e2 : nb m 6 3 = 8 := by rw [n6]; rfl
    rw [e1, e2, z6, z6', abs_zero, if_pos ⟨by omega, rfl, hmax⟩, if_neg (by rw [hN]; tauto)]
  have a0 : axisCode m s1 2 0 = some (0, some (1 / 2)) := by
    unfold axisCode upwindCode
    rw [s20, s21]
    have : (|1 / 2| : ℝ) ≤ |3 / 4| := by rw [abs_of_pos, abs_of_pos] <;> norm_num
    simp only [Side.only, Side.usable, Option.map_some, if_pos this]
    rw [if_pos (by rw [abs_zero, abs_of_pos] <;> norm_num)]
    rfl
  have a1 : axisCode m s1 2 1 = some (0, none) := by
    unfold axisCode upwindCode
    show (match (sideOf m s1 2 2).only, (sideOf m s1 2 3).only with
      | some a, some b => if |b.1| < |a.1| then some (b.1, b.2.or a.2) else some a
      | some a, none => some a
      | none, b => b) = _
    rw [s22, s23]
    simp [Side.only, Side.usable]
  have he : ∀ T, eik m s1 2 T = ((3 * T - 4 * 0 + 1 / 2) / 2) ^ 2 + (T - 0) ^ 2 := by
    intro T; unfold eik; rw [a0, a1]; simp only [diffSq]
  have hsq : Real.sqrt 204 ^ 2 = 204 := Real.sq_sqrt (by norm_num)
  have hpos : 0 < Real.sqrt 204 := Real.sqrt_pos.2 (by norm_num)
  obtain ⟨h4, -⟩ := updateV_solves (m := m) (s := s1) C 2 ⟨(-3 + Real.sqrt 204) / 26, (-3 - Real.sqrt 204) / 26, by
    intro h; linarith, by rw [he]; linear_combination hsq / 208, by rw [he]; linear_combination hsq / 208⟩
  rw [← hval, ← hv, he] at h4
  refine ⟨h4, fun h5 => ?_⟩
  have : vals F'.sd 2 = -11 / 12 := by linear_combination (h4 * 4 - h5 * 13 / 2) / 3
  rw [this] at h5
  norm_num at h5

end

end Slsm
