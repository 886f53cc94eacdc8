import Verif.Proof.FMMStruct

/-! The initial phase of fast marching in closed form, and the whole march as a sequence of elementary steps. -/

namespace Slsm

set_option linter.unusedSectionVars false

variable {D : Type} [FP D]

namespace FMM

/-- value of `crossing` -/
def crossV (m : Mesh D) (f : Nat → D) (i j : Nat) (s : Bool × D × D) : Bool × D × D :=
  if nb m i j ≠ m.nNodes ∧ FP.lt (FP.mul (f i) (f (nb m i j))) (FP.nat 0) = true then
    if j < 2 then
      (true, (if (FP.eq s.2.1 (FP.nat 0) || FP.lt (FP.div (f i) (FP.sub (f i) (f (nb m i j)))) s.2.1) = true
        then FP.div (f i) (FP.sub (f i) (f (nb m i j))) else s.2.1), s.2.2)
    else
      (true, s.2.1, (if (FP.eq s.2.2 (FP.nat 0) || FP.lt (FP.div (f i) (FP.sub (f i) (f (nb m i j)))) s.2.2) = true
        then FP.div (f i) (FP.sub (f i) (f (nb m i j))) else s.2.2))
  else s

/-- result of the loop over the neighbours -/
def borderV (m : Mesh D) (f : Nat → D) (i : Nat) : Bool × D × D :=
  crossV m f i 3 (crossV m f i 2 (crossV m f i 1 (crossV m f i 0 (false, FP.nat 0, FP.nat 0))))

/-- distance given to a border node -/
def borderDist (m : Mesh D) (f : Nat → D) (i : Nat) : D :=
  FP.sqrt (FP.div (FP.nat 1) (distSum (borderV m f i).2.1 (borderV m f i).2.2))

/-- value after `initialiseFrozen` -/
def initSd (m : Mesh D) (f : Nat → D) (i : Nat) : D :=
  if FP.eq (f i) (FP.nat 0) = true then f i
  else if (borderV m f i).1 = true then (if FP.lt (f i) (FP.nat 0) = true then FP.neg (borderDist m f i) else borderDist m f i)
  else f i

/-- status after `initialiseFrozen` -/
def initSt (m : Mesh D) (f : Nat → D) (i : Nat) : FMMStatus :=
  if FP.eq (f i) (FP.nat 0) = true ∨ (borderV m f i).1 = true then .frozen else .none

section
variable {w h : Nat} {m : Mesh D} {F : FMM D}

theorem crossing_eq (G : IsGrid w h m) {f : Nat → D} (hrd : ∀ i, i < m.nNodes → rd F.copy i = .ok (f i)) {i j : Nat}
    (hi : i < m.nNodes) (hj : j < 4) (s : Bool × D × D) : crossing m F i j s = .ok (crossV m f i j s) := by
  unfold crossing crossV
  simp only [bind, Except.bind, G.nbr_eq hi hj]
  by_cases h1 : nb m i j = m.nNodes
  · rw [if_neg (by simpa using h1), if_neg (by tauto)]; rfl
  · have hlt := G.nb_lt hi hj h1
    rw [if_pos h1]
    simp only [hrd i hi, hrd _ hlt]
    by_cases h2 : FP.lt (FP.mul (f i) (f (nb m i j))) (FP.nat 0) = true
    · have hc : nb m i j ≠ m.nNodes ∧ FP.lt (FP.mul (f i) (f (nb m i j))) (FP.nat 0) = true := ⟨h1, h2⟩
      rw [if_pos h2, if_pos hc]
      by_cases h3 : j < 2
      · simp only [h3, if_true]; rfl
      · simp only [h3, if_false]; rfl
    · rw [if_neg h2, if_neg (by tauto)]; rfl

theorem crossing_loop (G : IsGrid w h m) {f : Nat → D} (hrd : ∀ i, i < m.nNodes → rd F.copy i = .ok (f i)) {i : Nat}
    (hi : i < m.nNodes) : forN 4 (false, FP.nat 0, FP.nat 0) (crossing m F i) = .ok (borderV m f i) := by
  rw [forN_succ, forN_succ, forN_succ, forN_succ, forN_zero]
  simp only [bind, Except.bind, crossing_eq G hrd hi (show 0 < 4 by omega), crossing_eq G hrd hi (show 1 < 4 by omega),
    crossing_eq G hrd hi (show 2 < 4 by omega), crossing_eq G hrd hi (show 3 < 4 by omega)]
  rfl

/-- state before the loops of `initialiseFrozen` -/
structure Fresh (m : Mesh D) (f : Nat → D) (g : Nat → D) (iv t : Bool) (F : FMM D) : Prop where
  L : Lens m F
  iv : F.isVelocity = iv
  tst : F.isTest = t
  st : ∀ i, i < m.nNodes → F.st i = .none
  sd : ∀ i, i < m.nNodes → F.dv i = f i
  vl : ∀ i, i < m.nNodes → F.vl i = g i

/-- invariant of the first loop -/
structure Z (m : Mesh D) (f g : Nat → D) (iv t : Bool) (k : Nat) (s : FMM D × Nat) : Prop where
  L : Lens m s.1
  iv : s.1.isVelocity = iv
  tst : s.1.isTest = t
  sd : ∀ i, i < m.nNodes → s.1.dv i = f i
  vl : ∀ i, i < m.nNodes → s.1.vl i = g i
  cp : ∀ i, i < k → s.1.cp i = f i
  st : ∀ i, i < m.nNodes → s.1.st i = if i < k ∧ FP.eq (f i) (FP.nat 0) = true then .frozen else .none
  n : 0 < s.2 ↔ ∃ i, i < k ∧ FP.eq (f i) (FP.nat 0) = true

theorem frozenZero_z {f g : Nat → D} {iv t : Bool} {k : Nat} (hk : k < m.nNodes) {s : FMM D × Nat}
    (I : Z m f g iv t k s) : wp (frozenZero k s) (Z m f g iv t (k + 1)) noErr := by
  obtain ⟨F, n⟩ := s
  have L : Lens m F := I.L
  have hkc : k < F.copy.length := by rw [L.c]; exact hk
  have hks : k < F.status.length := by rw [L.s]; exact hk
  have hsd : rd F.sd k = .ok (f k) := by rw [rd_dv L hk]; exact congrArg _ (I.sd k hk)
  have hst : F.st k = .none := by rw [I.st k hk, if_neg (by omega)]
  unfold frozenZero
  simp only
  rw [wp_bind, hsd, wp_ok, wp_bind, wr_eq _ hkc, wp_ok]
  rw [wp_bind, rd_st L hk, wp_ok, hst, if_pos (by simp), wp_bind, rd_eq (by simpa using hkc), wp_ok]
  simp only [List.getElem_set_self]
  have hcp : ∀ i, i < k + 1 → ((F.copy.set k (f k)).getD i (FP.nat 0)) = f i := by
    intro i hi
    rw [getD_set]
    by_cases hik : k = i
    · subst hik; rw [if_pos ⟨rfl, hkc⟩]
    · rw [if_neg (by tauto)]; exact I.cp i (by omega)
  by_cases hz : FP.eq (f k) (FP.nat 0) = true
  · rw [if_pos hz, wp_bind, wr_eq _ hks, wp_ok, wp_pure]
    refine ⟨⟨by simpa using L.s, L.p, by simpa using L.c, L.d, L.v⟩, I.iv, I.tst, I.sd, I.vl, hcp, fun i hi => ?_, ?_⟩
    · show (F.status.set k .frozen).getD i .none = _
      rw [getD_set]
      by_cases hik : k = i
      · subst hik; rw [if_pos ⟨rfl, hks⟩, if_pos ⟨by omega, hz⟩]
      · rw [if_neg (by tauto)]
        refine (I.st i hi).trans (if_congr (and_congr_left' ?_) rfl rfl)
        omega
    · simp only [Nat.zero_lt_succ, true_iff]
      exact ⟨k, by omega, hz⟩
  · rw [if_neg hz, wp_pure]
    refine ⟨⟨L.s, L.p, by simpa using L.c, L.d, L.v⟩, I.iv, I.tst, I.sd, I.vl, hcp, fun i hi => ?_, ?_⟩
    · refine (I.st i hi).trans (if_congr ?_ rfl rfl)
      by_cases hik : i = k
      · subst hik; constructor
        · intro h; exact absurd h.2 hz
        · intro h; exact absurd h.2 hz
      · refine and_congr_left' ?_
        omega
    · refine I.n.trans ⟨fun ⟨i, hi, h⟩ => ⟨i, by omega, h⟩, fun ⟨i, hi, h⟩ => ⟨i, ?_, h⟩⟩
      rcases Nat.lt_succ_iff_lt_or_eq.1 hi with h' | rfl
      · exact h'
      · exact absurd h hz

/-- invariant of the second loop -/
structure Bd (m : Mesh D) (f g : Nat → D) (iv t : Bool) (k : Nat) (s : FMM D × Nat) : Prop where
  L : Lens m s.1
  iv : s.1.isVelocity = iv
  tst : s.1.isTest = t
  vl : ∀ i, i < m.nNodes → s.1.vl i = g i
  cp : ∀ i, i < m.nNodes → s.1.cp i = f i
  sd : ∀ i, i < m.nNodes → s.1.dv i = if i < k then initSd m f i else f i
  st : ∀ i, i < m.nNodes → s.1.st i =
    if i < k then initSt m f i else if FP.eq (f i) (FP.nat 0) = true then .frozen else .none
  n : 0 < s.2 ↔ ∃ i, i < m.nNodes ∧ (FP.eq (f i) (FP.nat 0) = true ∨ (i < k ∧ (borderV m f i).1 = true))

theorem frozenBorder_bd (G : IsGrid w h m) {f g : Nat → D} {iv t : Bool} {k : Nat} (hk : k < m.nNodes)
    {s : FMM D × Nat} (I : Bd m f g iv t k s) : wp (frozenBorder m k s) (Bd m f g iv t (k + 1)) noErr := by
  obtain ⟨F, n⟩ := s
  have L : Lens m F := I.L
  have hkd : k < F.sd.length := by rw [L.d]; exact hk
  have hks : k < F.status.length := by rw [L.s]; exact hk
  have hst : F.st k = if FP.eq (f k) (FP.nat 0) = true then .frozen else .none := by
    rw [I.st k hk, if_neg (by omega)]
  have hrd : ∀ i, i < m.nNodes → rd F.copy i = .ok (f i) := fun i hi => by rw [rd_cp L hi]; exact congrArg _ (I.cp i hi)
  -- when nothing changes
  have skip : (FP.eq (f k) (FP.nat 0) = true ∨ (borderV m f k).1 = false) →
      Bd m f g iv t (k + 1) (F, n) := by
    intro hz
    refine ⟨L, I.iv, I.tst, I.vl, I.cp, fun i hi => ?_, fun i hi => ?_, ?_⟩
    · refine (I.sd i hi).trans ?_
      by_cases hik : i = k
      · subst hik
        rw [if_neg (show ¬ i < i by omega), if_pos (show i < i + 1 by omega)]
        unfold initSd
        rcases hz with hz | hz
        · rw [if_pos hz]
        · rw [hz]; simp
      · by_cases hlt : i < k
        · rw [if_pos hlt, if_pos (show i < k + 1 by omega)]
        · rw [if_neg hlt, if_neg (show ¬ i < k + 1 by omega)]
    · refine (I.st i hi).trans ?_
      by_cases hik : i = k
      · subst hik
        rw [if_neg (show ¬ i < i by omega), if_pos (show i < i + 1 by omega)]
        unfold initSt
        rcases hz with hz | hz
        · rw [if_pos hz, if_pos (.inl hz)]
        · rw [hz]; simp
      · by_cases hlt : i < k
        · rw [if_pos hlt, if_pos (show i < k + 1 by omega)]
        · rw [if_neg hlt, if_neg (show ¬ i < k + 1 by omega)]
    · refine I.n.trans ⟨?_, ?_⟩
      · rintro ⟨i, hi, h | ⟨h, h'⟩⟩
        · exact ⟨i, hi, .inl h⟩
        · exact ⟨i, hi, .inr ⟨by omega, h'⟩⟩
      · rintro ⟨i, hi, h | ⟨h, h'⟩⟩
        · exact ⟨i, hi, .inl h⟩
        · rcases Nat.lt_succ_iff_lt_or_eq.1 h with h'' | rfl
          · exact ⟨i, hi, .inr ⟨h'', h'⟩⟩
          · rcases hz with hz | hz
            · exact ⟨i, hi, .inl hz⟩
            · rw [hz] at h'; cases h'
  unfold frozenBorder
  simp only
  rw [wp_bind, rd_st L hk, wp_ok, hst]
  by_cases hz : FP.eq (f k) (FP.nat 0) = true
  · rw [if_pos hz, if_neg (by simp), wp_pure]
    exact skip (.inl hz)
  · rw [if_neg hz, if_pos (show FMMStatus.none = .none from rfl), wp_bind, crossing_loop G hrd hk, wp_ok]
    by_cases hb : (borderV m f k).1 = true
    · rw [if_pos hb, wp_bind, hrd k hk, wp_ok]
      rw [wp_bind, wr_eq _ hkd, wp_ok, wp_bind, wr_eq _ hks, wp_ok, wp_pure]
      refine ⟨⟨by simpa using L.s, L.p, L.c, by simpa using L.d, L.v⟩, I.iv, I.tst, I.vl, I.cp, fun i hi => ?_,
        fun i hi => ?_, ?_⟩
      · show (F.sd.set k _).getD i _ = _
        rw [getD_set]
        by_cases hik : k = i
        · subst hik
          rw [if_pos ⟨rfl, hkd⟩, if_pos (show k < k + 1 by omega)]
          unfold initSd borderDist
          rw [if_neg hz, if_pos hb]
        · rw [if_neg (by tauto)]
          refine (I.sd i hi).trans (if_congr ?_ rfl rfl)
          omega
      · show (F.status.set k _).getD i _ = _
        rw [getD_set]
        by_cases hik : k = i
        · subst hik
          rw [if_pos ⟨rfl, hks⟩, if_pos (show k < k + 1 by omega)]
          unfold initSt
          rw [if_pos (.inr hb)]
        · rw [if_neg (by tauto)]
          refine (I.st i hi).trans (if_congr ?_ rfl rfl)
          omega
      · simp only [Nat.zero_lt_succ, true_iff]
        exact ⟨k, hk, .inr ⟨by omega, hb⟩⟩
    · rw [if_neg hb, wp_pure]
      exact skip (.inr (by simpa using hb))

/-- state after `initialiseFrozen` -/
structure Init (m : Mesh D) (f g : Nat → D) (iv t : Bool) (F : FMM D) : Prop where
  L : Lens m F
  iv : F.isVelocity = iv
  tst : F.isTest = t
  vl : ∀ i, i < m.nNodes → F.vl i = g i
  cp : ∀ i, i < m.nNodes → F.cp i = f i
  sd : ∀ i, i < m.nNodes → F.dv i = initSd m f i
  st : ∀ i, i < m.nNodes → F.st i = initSt m f i

theorem initialiseFrozen_spec (G : IsGrid w h m) {f g : Nat → D} {iv t : Bool} (I : Fresh m f g iv t F) :
    wp (initialiseFrozen m F) (fun F' => Init m f g iv t F' ∧ ∃ i, i < m.nNodes ∧ initSt m f i = .frozen)
      (fun e => e = .exit ∧ ¬ ∃ i, i < m.nNodes ∧ initSt m f i = .frozen) := by
  unfold initialiseFrozen
  rw [wp_bind]
  refine wp_mono (wp_forN (E := noErr) (Z m f g iv t) ?_ fun i hi s hs => frozenZero_z hi hs) ?_ (fun e he => he.elim)
  · exact ⟨I.L, I.iv, I.tst, I.sd, I.vl, fun i hi => by omega,
      fun i hi => by rw [if_neg (by omega)]; exact I.st i hi, by simp⟩
  intro s hs
  rw [wp_bind]
  refine wp_mono (wp_forN (E := noErr) (Bd m f g iv t) ?_ fun i hi s hs => frozenBorder_bd G hi hs) ?_
    (fun e he => he.elim)
  · refine ⟨hs.L, hs.iv, hs.tst, hs.vl, hs.cp, fun i hi => by rw [if_neg (by omega)]; exact hs.sd i hi, fun i hi => ?_, ?_⟩
    · rw [if_neg (by omega), hs.st i hi]
      exact if_congr ⟨fun h => h.2, fun h => ⟨hi, h⟩⟩ rfl rfl
    · refine hs.n.trans ⟨fun ⟨i, hi, h⟩ => ⟨i, hi, .inl h⟩, ?_⟩
      rintro ⟨i, hi, h | ⟨h, -⟩⟩
      · exact ⟨i, hi, h⟩
      · omega
  rintro ⟨F', n⟩ hF
  simp only
  have hn : 0 < n ↔ ∃ i, i < m.nNodes ∧ initSt m f i = .frozen := by
    refine hF.n.trans ?_
    constructor
    · rintro ⟨i, hi, h⟩
      refine ⟨i, hi, ?_⟩
      unfold initSt
      rw [if_pos]
      rcases h with h | h
      · exact .inl h
      · exact .inr h.2
    · rintro ⟨i, hi, h⟩
      unfold initSt at h
      split_ifs at h with hc
      refine ⟨i, hi, ?_⟩
      rcases hc with h | h
      · exact .inl h
      · exact .inr ⟨hi, h⟩
  rw [wp_bind]
  by_cases h0 : 0 < n
  · rw [decide_eq_true h0, check_true, wp_ok, wp_pure]
    exact ⟨⟨hF.L, hF.iv, hF.tst, hF.vl, hF.cp, fun i hi => by rw [hF.sd i hi, if_pos hi],
      fun i hi => by rw [hF.st i hi, if_pos hi]⟩, hn.1 h0⟩
  · rw [decide_eq_false h0, check_false, wp_error]
    exact ⟨rfl, fun h => h0 (hn.2 h)⟩

theorem initialiseHeap_eq (L : Lens m F) :
    initialiseHeap m F = .ok { F with heap := Heap.new (F.status.count .none) F.isTest } := by
  unfold initialiseHeap
  have : forN m.nNodes (0 : Nat) (fun i n => do
      let st ← rd F.status i
      pure (if st = .none then n + 1 else n)) = .ok ((F.status.take m.nNodes).count .none) := by
    refine forN_eq (σ := Nat) (s := 0) (n := m.nNodes) (fun k => (F.status.take k).count .none) (by simp) fun i hi => ?_
    have hl : i < F.status.length := by rw [L.s]; exact hi
    simp only [bind, Except.bind]
    rw [rd_eq hl]
    simp only [pure, Except.pure]
    rw [List.take_succ_eq_append_getElem hl, List.count_append, List.count_singleton]
    congr 1
    simp only [beq_iff_eq]
    split_ifs <;> simp
  simp only [bind, Except.bind] at this ⊢
  rw [this, ← L.s, List.take_length]
  rfl

theorem initSt_ne_trial (f : Nat → D) (i : Nat) : initSt m f i ≠ .trial := by
  unfold initSt; split_ifs <;> simp

theorem Init.finv {f g : Nat → D} {iv t : Bool} (I : Init m f g iv t F) :
    FInv m F.cp iv t { F with heap := Heap.new (F.status.count .none) F.isTest } := by
  have hnt : ∀ i, i < m.nNodes → F.st i ≠ .trial := fun i hi => by rw [I.st i hi]; exact initSt_ne_trial f i
  refine ⟨⟨I.L.s, I.L.p, I.L.c, I.L.d, I.L.v⟩, I.iv, rfl, (Heap.new_sinv _ _).congr fun k => ?_, fun i hi hs => ?_,
    fun i hi hs => ?_, fun _ => Heap.new_ordered _ _, ?_, ?_, ?_⟩
  · constructor
    · exact False.elim
    · rintro ⟨i, hi, hs, -⟩
      exact hnt i hi hs
  · exact absurd hs (hnt i hi)
  · exact absurd hs (hnt i hi)
  · show 0 + F.status.count .none ≤ F.status.count .none
    omega
  · show F.status.count .none ≤ m.nNodes
    rw [← I.L.s]; exact List.count_le_length
  · exact I.tst

/-- everything the later proofs need to know about a march -/
structure Marched (m : Mesh D) (f g : Nat → D) (iv t : Bool) (F' : FMM D) : Prop where
  interface : ∃ i, i < m.nNodes ∧ initSt m f i = .frozen
  L : Lens m F'
  cp : ∀ i, i < m.nNodes → F'.cp i = f i
  isV : F'.isVelocity = iv
  steps : ∃ s0 : AS D, (∀ i, i < m.nNodes → s0.st i = initSt m f i ∧ s0.sd i = initSd m f i ∧ s0.vel i = g i) ∧
    ∃ C : Nat → D, (∀ i, i < m.nNodes → C i = f i) ∧ Micros m C iv (adm m iv) s0 F'.abs
  closed : Closed m iv (fun _ => False) F'.st
  noTrial : ∀ i, i < m.nNodes → F'.st i ≠ .trial

/-- abnormal ends of a march -/
def MarchErr (m : Mesh D) (f g : Nat → D) (iv t : Bool) (e : Err) : Prop :=
  (e = .exit ∧ ¬ ∃ i, i < m.nNodes ∧ initSt m f i = .frozen) ∨ ∃ s0 : AS D, (∀ i, i < m.nNodes → s0.st i = initSt m f i ∧ s0.sd i = initSd m f i ∧ s0.vel i = g i) ∧
    ∃ C : Nat → D, (∀ i, i < m.nNodes → C i = f i) ∧ ErrAt m C iv t s0 e

theorem march_core (G : IsGrid w h m) {f g : Nat → D} {iv t : Bool} (I : Fresh m f g iv t F) :
    wp (initialiseFrozen m F >>= fun F => initialiseHeap m F >>= fun F => initialiseTrial m F >>= fun F => solve m F)
      (Marched m f g iv t) (MarchErr m f g iv t) := by
  rw [wp_bind]
  refine wp_mono (initialiseFrozen_spec G I) ?_ fun e he => .inl he
  rintro F1 ⟨I1, hint⟩
  rw [wp_bind, initialiseHeap_eq I1.L, wp_ok, wp_bind]
  have F2 := I1.finv
  have hs0 : ∀ i, i < m.nNodes → F1.abs.st i = initSt m f i ∧ F1.abs.sd i = initSd m f i ∧ F1.abs.vel i = g i :=
    fun i hi => ⟨I1.st i hi, I1.sd i hi, I1.vl i hi⟩
  refine wp_mono (initialiseTrial_sp G F2) ?_ fun e he => .inr ⟨F1.abs, hs0, F1.cp, I1.cp, he.at⟩
  rintro F3 ⟨S3, hcl3⟩
  refine wp_mono (solve_ph G S3.I hcl3) ?_ fun e he => .inr ⟨F1.abs, hs0, F1.cp, I1.cp, he.trans S3.steps⟩
  rintro F4 ⟨P4, hcl4, hnt⟩
  refine ⟨hint, P4.I.L, fun i hi => ?_, P4.I.iv, ⟨F1.abs, hs0, F1.cp, I1.cp,
    S3.steps.trans P4.steps⟩, hcl4, hnt⟩
  rw [P4.I.C]; exact I1.cp i hi

theorem getD_replicate {α : Type} (n i : Nat) (a : α) : (List.replicate n a).getD i a = a := by
  rw [List.getD_eq_getElem?_getD, List.getElem?_replicate]
  split_ifs <;> rfl

theorem marchDistance_spec (G : IsGrid w h m) (sd : List D) (hsd : sd.length = m.nNodes) (t : Bool) :
    wp (marchDistance m sd (FMM.new m t))
      (Marched m (fun i => sd.getD i (FP.nat 0)) (fun _ => FP.nat 0) false t)
      (MarchErr m (fun i => sd.getD i (FP.nat 0)) (fun _ => FP.nat 0) false t) := by
  refine march_core G (F := { FMM.new m t with sd := sd, isVelocity := false }) ?_
  exact ⟨⟨by simp [FMM.new], by simp [FMM.new], by simp [FMM.new], hsd, fun h => by simp at h⟩, rfl, rfl,
    fun i _ => getD_replicate _ _ _, fun i _ => rfl, fun i _ => rfl⟩

theorem marchVelocity_spec (G : IsGrid w h m) (sd vel : List D) (hsd : sd.length = m.nNodes)
    (hvel : vel.length = m.nNodes) (t : Bool) :
    wp (marchVelocity m sd vel (FMM.new m t))
      (fun F' => F'.sd = sd ∧ ∃ F, Marched m (fun i => sd.getD i (FP.nat 0)) (fun i => vel.getD i (FP.nat 0)) true t F ∧
        F'.vel = F.vel ∧ F'.status = F.status)
      (MarchErr m (fun i => sd.getD i (FP.nat 0)) (fun i => vel.getD i (FP.nat 0)) true t) := by
  have key := march_core G (F := { FMM.new m t with sd := sd, vel := vel, isVelocity := true })
    (f := fun i => sd.getD i (FP.nat 0)) (g := fun i => vel.getD i (FP.nat 0)) (iv := true) (t := t)
    ⟨⟨by simp [FMM.new], by simp [FMM.new], by simp [FMM.new], hsd, fun _ => hvel⟩, rfl, rfl,
    fun i _ => getD_replicate _ _ _, fun i _ => rfl, fun i _ => rfl⟩
  have e : marchVelocity m sd vel (FMM.new m t) =
      (initialiseFrozen m { FMM.new m t with sd := sd, vel := vel, isVelocity := true } >>= fun F =>
        initialiseHeap m F >>= fun F => initialiseTrial m F >>= fun F => solve m F) >>= fun F =>
        pure { F with sd := F.copy } := by
    unfold marchVelocity
    simp only [bind_assoc]
  rw [e, wp_bind]
  refine wp_imp key fun F hF => ?_
  rw [wp_pure]
  refine ⟨?_, F, hF, rfl, rfl⟩
  show F.copy = sd
  refine List.ext_getElem (by rw [hF.L.c, hsd]) fun i h1 h2 => ?_
  have := hF.cp i (by rw [← hsd]; exact h2)
  unfold cp at this
  simp only [List.getD_eq_getElem?_getD, List.getElem?_eq_getElem h1, List.getElem?_eq_getElem h2] at this
  exact this

end

end FMM

end Slsm
