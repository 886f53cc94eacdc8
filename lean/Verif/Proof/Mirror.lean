import Verif.Lib.Both
import Verif.Proof.LSVel

/-! # The fast marching method with inside and outside exchanged -/

namespace Slsm

namespace FMM

/-- All distances with the opposite sign. -/
noncomputable def flip (F : FMM ℝ) : FMM ℝ := { F with sd := F.sd.map (- ·), copy := F.copy.map (- ·) }

/-- The second object is the first with inside and outside exchanged; every node that is not final has a value that the code distinguishes from zero. -/
structure Mir (F F' : FMM ℝ) : Prop where
  eq : F' = flip F
  big : ∀ (i : Nat) (c : ℝ), F.copy[i]? = some c → F.status[i]? = some FMMStatus.frozen ∨ 1 / 2 ^ 52 < |c|

variable {m : Mesh ℝ} {F F' : FMM ℝ}

theorem eps_real : (doubleEpsilon : ℝ) = 1 / 2 ^ 52 := by
  unfold doubleEpsilon
  simp [FP.lit_real]
  norm_num

/-- Value of a stencil and its mirror image. -/
def Op (a a' : ℝ) : Prop := a = FP.maxVal ∧ a' = FP.maxVal ∨ |a| < FP.maxVal ∧ a' = -a

theorem Op.abs {a a' : ℝ} (h : Op a a') : |a'| = |a| := by
  rcases h with ⟨h1, h2⟩ | ⟨-, h2⟩
  · rw [h1, h2]
  · rw [h2, abs_neg]

theorem Op.lt {a a' : ℝ} (h : Op a a') : a' < FP.maxVal ↔ a < FP.maxVal := by
  rcases h with ⟨h1, h2⟩ | ⟨h1, h2⟩
  · rw [h1, h2]
  · have := abs_lt.1 h1
    rw [h2]
    constructor <;> intro _ <;> linarith

theorem Op.neg_of {a a' : ℝ} (h : Op a a') (hl : a < FP.maxVal) : a' = -a := by
  rcases h with ⟨h1, h2⟩ | ⟨h1, h2⟩
  · rw [h1] at hl; exact absurd hl (lt_irrefl _)
  · exact h2

theorem Op.le {a a' : ℝ} (h : Op a a') : |a| ≤ FP.maxVal := by
  rcases h with ⟨h1, -⟩ | ⟨h1, -⟩
  · rw [h1, abs_of_pos maxVal_pos]
  · exact h1.le

/-- Two such values. -/
def Op2 (s s' : ℝ × ℝ) : Prop := Op s.1 s'.1 ∧ Op s.2 s'.2 ∧ (s.2 < FP.maxVal → s.1 < FP.maxVal)

theorem flip_stencilDir (F : FMM ℝ) (node i j : Nat) {s s' : ℝ × ℝ} (h : Op2 s s') :
    Both Op2 (stencilDir m F node i j s) (stencilDir m (flip F) node i j s') := by
  refine Both.same (nbr m node (2 * i + j)) fun n1 _ => Both.ite Iff.rfl (fun _ => ?_) fun _ => h
  refine Both.same (rd F.status n1) fun st1 _ => Both.ite Iff.rfl (fun _ => ?_) fun _ => h
  refine Both.bind (Both.rd_map (- ·) F.sd n1) fun v v' _ hv => ?_
  obtain ⟨rfl, -⟩ := hv
  refine Both.ite ?_ (fun hlt => ?_) fun _ => h
  · change FP.lt |v| |s.1| = true ↔ FP.lt |(-v)| |s'.1| = true
    rw [abs_neg, h.1.abs]
  · have hv : |v| < FP.maxVal := ((FP.lt_real _ _).1 hlt).trans_le h.1.le
    refine Both.same (nbr m n1 (2 * i + j)) fun n2 _ => Both.ite Iff.rfl (fun _ => ?_) fun _ => ⟨.inr ⟨hv, rfl⟩, h.2.1, fun _ => (le_abs_self v).trans_lt hv⟩
    refine Both.same (rd F.status n2) fun st2 _ => Both.ite Iff.rfl (fun _ => ?_) fun _ => ⟨.inr ⟨hv, rfl⟩, h.2.1, fun _ => (le_abs_self v).trans_lt hv⟩
    refine Both.bind (Both.rd_map (- ·) F.sd n2) fun v2 v2' _ hv2 => ?_
    obtain ⟨rfl, -⟩ := hv2
    refine ⟨.inr ⟨hv, rfl⟩, ?_, fun _ => (le_abs_self v).trans_lt hv⟩
    by_cases hle : |v2| ≤ |v|
    · have e1 : FP.le (FP.abs v2) (FP.abs v) = true := (FP.le_real _ _).2 hle
      have e2 : FP.le (FP.abs (-v2)) (FP.abs (-v)) = true := (FP.le_real _ _).2 (by simpa using hle)
      simp only [e1, e2, if_true]
      exact .inr ⟨hle.trans_lt hv, rfl⟩
    · have e1 : ¬ FP.le (FP.abs v2) (FP.abs v) = true := fun h => hle ((FP.le_real _ _).1 h)
      have e2 : ¬ FP.le (FP.abs (-v2)) (FP.abs (-v)) = true := fun h => hle (by simpa using (FP.le_real _ _).1 h)
      simp only [e1, e2]
      exact h.2.1

theorem flip_accum {d1 d1' d2 d2' : ℝ} (h1 : Op d1 d1') (h2 : Op d2 d2') (hd : d2 < FP.maxVal → d1 < FP.maxVal) (a b c : ℝ) :
    accum d1' d2' (a, -b, c) = ((accum d1 d2 (a, b, c)).1, -(accum d1 d2 (a, b, c)).2.1, (accum d1 d2 (a, b, c)).2.2) := by
  unfold accum
  by_cases h : d2 < FP.maxVal
  · have e1 : FP.lt d2 FP.maxVal = true := (FP.lt_real _ _).2 h
    have e2 : FP.lt d2' FP.maxVal = true := (FP.lt_real _ _).2 (h2.lt.2 h)
    simp only [e1, e2, if_true]
    rw [h1.neg_of (hd h), h2.neg_of h]
    simp only [FP.add_real, FP.sub_real, FP.mul_real, FP.lit_real, FP.nat_real]
    refine Prod.ext rfl (Prod.ext ?_ ?_) <;> dsimp only <;> ring
  · have e1 : ¬ FP.lt d2 FP.maxVal = true := fun h' => h ((FP.lt_real _ _).1 h')
    have e2 : ¬ FP.lt d2' FP.maxVal = true := fun h' => h (h2.lt.1 ((FP.lt_real _ _).1 h'))
    simp only [e1, e2]
    by_cases h' : d1 < FP.maxVal
    · have e1 : FP.lt d1 FP.maxVal = true := (FP.lt_real _ _).2 h'
      have e2 : FP.lt d1' FP.maxVal = true := (FP.lt_real _ _).2 (h1.lt.2 h')
      simp only [e1, e2, if_true]
      rw [h1.neg_of h']
      simp only [FP.add_real, FP.sub_real, FP.mul_real, FP.nat_real]
      refine Prod.ext rfl (Prod.ext ?_ ?_) <;> simp <;> ring
    · have e1 : ¬ FP.lt d1 FP.maxVal = true := fun h => h' ((FP.lt_real _ _).1 h)
      have e2 : ¬ FP.lt d1' FP.maxVal = true := fun h => h' (h1.lt.1 ((FP.lt_real _ _).1 h))
      simp only [e1, e2]
      rfl

theorem flip_updateNode (F : FMM ℝ) (node : Nat) (hbig : ∀ c, F.copy[node]? = some c → 1 / 2 ^ 52 < |c|) :
    Both (fun d d' => d' = -d) (updateNode m F node) (updateNode m (flip F) node) := by
  have hmax : Op FP.maxVal FP.maxVal := .inl ⟨rfl, rfl⟩
  refine Both.bind (R := fun (s s' : ℝ × ℝ × ℝ) => s' = (s.1, -s.2.1, s.2.2)) ?_ fun s s' _ hs => ?_
  · refine Both.forN (by simp [FP.nat_real]) fun i _ s s' hs => ?_
    refine Both.bind (R := Op2) (Both.forN ⟨hmax, hmax, id⟩ fun j _ a b hab => flip_stencilDir F node i j hab) fun d d' _ hd => ?_
    obtain ⟨d1, d2⟩ := d
    obtain ⟨d1', d2'⟩ := d'
    obtain ⟨a, b, c⟩ := s
    rw [hs]
    exact flip_accum hd.1 hd.2.1 hd.2.2 a b c
  · obtain ⟨a, b, c⟩ := s
    rw [hs]
    unfold solveQuadratic
    have hdis : (-b) *. (-b) -. FP.nat 4 *. a *. (c -. FP.nat 1) = b *. b -. FP.nat 4 *. a *. (c -. FP.nat 1) := by
      change -b * -b - _ = b * b - _
      rw [neg_mul_neg]
    dsimp only
    rw [hdis]
    refine Both.ite Iff.rfl (fun _ => ?_) fun _ => ?_
    · refine Both.bind (Both.rd_map (- ·) F.copy node) fun cp cp' _ hcp => ?_
      obtain ⟨rfl, hc⟩ := hcp
      have hb := hbig cp hc
      have heps : (0 : ℝ) < 1 / 2 ^ 52 := by positivity
      generalize b *. b -. FP.nat 4 *. a *. (c -. FP.nat 1) = D
      by_cases h : 1 / 2 ^ 52 < cp
      · have e1 : FP.lt (doubleEpsilon : ℝ) cp = true := (FP.lt_real _ _).2 (by rw [eps_real]; exact h)
        have e2 : ¬ FP.lt (doubleEpsilon : ℝ) (-cp) = true := fun h' => by
          have := (FP.lt_real _ _).1 h'
          rw [eps_real] at this
          linarith
        simp only [e1, e2, if_true]
        change (- -b - Real.sqrt D) / (_ * a) = -((-b + Real.sqrt D) / (_ * a))
        ring
      · have e1 : ¬ FP.lt (doubleEpsilon : ℝ) cp = true := fun h' => h (by rw [← eps_real]; exact (FP.lt_real _ _).1 h')
        have hneg : 1 / 2 ^ 52 < -cp := by
          rcases lt_abs.1 hb with h' | h'
          · exact absurd h' h
          · exact h'
        have e2 : FP.lt (doubleEpsilon : ℝ) (-cp) = true := (FP.lt_real _ _).2 (by rw [eps_real]; exact hneg)
        simp only [e1, e2, if_true]
        change (- -b + Real.sqrt D) / (_ * a) = -((-b - Real.sqrt D) / (_ * a))
        ring
    · exact (Both.rd_map (- ·) F.sd node).mono fun _ _ _ _ h => h.1

theorem flip_frozenZero (i : Nat) (s : FMM ℝ × Nat) :
    Both (fun t t' => t' = (flip t.1, t.2)) (frozenZero i s) (frozenZero i (flip s.1, s.2)) := by
  obtain ⟨F, k⟩ := s
  refine Both.bind (Both.rd_map (- ·) F.sd i) fun v v' _ hv => ?_
  obtain ⟨rfl, -⟩ := hv
  refine Both.bind (Both.wr_map (- ·) F.copy i rfl) fun c c' _ hc => ?_
  obtain ⟨rfl, -⟩ := hc
  refine Both.same (rd F.status i) fun st _ => Both.ite Iff.rfl (fun _ => ?_) fun _ => rfl
  refine Both.bind (Both.rd_map (- ·) c i) fun x x' _ hx => ?_
  obtain ⟨rfl, -⟩ := hx
  refine Both.ite ?_ (fun _ => ?_) fun _ => rfl
  · rw [FP.eq_real, FP.eq_real, FP.nat_real, Nat.cast_zero, neg_eq_zero]
  · exact Both.same (wr F.status i .frozen) fun status _ => rfl

theorem flip_crossing (F : FMM ℝ) (i j : Nat) (s : Bool × ℝ × ℝ) : Both (fun t t' => t' = t) (crossing m F i j s) (crossing m (flip F) i j s) := by
  obtain ⟨b, d0, d1⟩ := s
  refine Both.same (nbr m i j) fun k _ => Both.ite Iff.rfl (fun _ => ?_) fun _ => rfl
  refine Both.bind (Both.rd_map (- ·) F.copy i) fun ci ci' _ hci => ?_
  obtain ⟨rfl, -⟩ := hci
  refine Both.bind (Both.rd_map (- ·) F.copy k) fun cn cn' _ hcn => ?_
  obtain ⟨rfl, -⟩ := hcn
  have e1 : (-ci) *. (-cn) = ci *. cn := neg_mul_neg ci cn
  have e2 : (-ci) /. ((-ci) -. (-cn)) = ci /. (ci -. cn) := by
    change -ci / (-ci - -cn) = ci / (ci - cn)
    rw [show -ci - -cn = -(ci - cn) by ring, neg_div_neg_eq]
  rw [e1, e2]
  exact Both.ite Iff.rfl (fun _ => Both.ite Iff.rfl (fun _ => rfl) fun _ => rfl) fun _ => rfl

/-- State of the first loop. -/
structure Zr (n : Nat) (sd : List ℝ) (k : Nat) (t t' : FMM ℝ × Nat) : Prop where
  eq : t' = (flip t.1, t.2)
  sd : t.1.sd = sd
  copy : t.1.copy.length = n
  status : t.1.status.length = n
  plain : ∀ i : Nat, t.1.status[i]? ≠ some FMMStatus.masked
  big : ∀ i : Nat, i < k → ∀ c : ℝ, t.1.copy[i]? = some c → t.1.status[i]? = some FMMStatus.frozen ∨ 1 / 2 ^ 52 < |c|

theorem zr_step {n k : Nat} {sd : List ℝ} (hsd : sd.length = n) (hval : ∀ v ∈ sd, v = 0 ∨ 1 / 2 ^ 52 < |v|) (hk : k < n) {t t' : FMM ℝ × Nat} (h : Zr n sd k t t') :
    Both (Zr n sd (k + 1)) (frozenZero k t) (frozenZero k t') := by
  obtain ⟨F, q⟩ := t
  rw [h.eq]
  refine (flip_frozenZero k (F, q)).mono fun a b ha hb hab => ?_
  have hl : F.sd = sd := h.sd
  have hv : F.sd[k]? = some (sd[k]'(by omega)) := by rw [hl]; exact List.getElem?_eq_getElem _
  have hst : ∃ x, F.status[k]? = some x ∧ x ≠ .masked := by
    have hlen : F.status.length = n := h.status
    exact ⟨_, List.getElem?_eq_getElem (by omega), fun hx => h.plain k (by rw [List.getElem?_eq_getElem (by omega : k < F.status.length), hx])⟩
  obtain ⟨x, hx, hxm⟩ := hst
  have hcl : F.copy.length = n := h.copy
  have hsl : F.status.length = n := h.status
  have hc : rd (F.copy.set k (sd[k]'(by omega))) k = .ok (sd[k]'(by omega)) := rd_of_getElem? (by rw [List.getElem?_set_self (by omega)])
  change (rd F.sd k >>= fun v => wr F.copy k v >>= fun copy => rd F.status k >>= fun st => if st ≠ .masked then
      rd copy k >>= fun c => if FP.eq c (FP.nat 0) then wr F.status k .frozen >>= fun status => pure ({ F with copy := copy, status := status }, q + 1)
        else pure ({ F with copy := copy }, q) else pure ({ F with copy := copy }, q)) = .ok a at ha
  rw [rd_of_getElem? hv] at ha
  change (wr F.copy k (sd[k]'(by omega)) >>= _) = .ok a at ha
  rw [wr_eq _ (by omega), rd_of_getElem? hx] at ha
  change (if x ≠ .masked then _ else _) = Except.ok a at ha
  rw [if_pos hxm, hc] at ha
  change (if FP.eq (sd[k]'(by omega)) (FP.nat 0) = true then (wr F.status k .frozen >>= _) else _) = Except.ok a at ha
  have hcase : ∀ i, i < k + 1 → i ≠ k → ∀ c : ℝ, (F.copy.set k (sd[k]'(by omega)))[i]? = some c → F.status[i]? = some FMMStatus.frozen ∨ 1 / 2 ^ 52 < |c| := by
    intro i hi hne c hc
    rw [List.getElem?_set_ne (Ne.symm hne)] at hc
    exact h.big i (by omega) c hc
  by_cases h0 : sd[k]'(by omega) = 0
  · rw [if_pos (by rw [FP.eq_real, h0, FP.nat_real, Nat.cast_zero]), wr_eq _ (by omega)] at ha
    cases ha
    refine ⟨hab, h.sd, by simpa using hcl, by simpa using hsl, fun i => ?_, fun i hi c hc => ?_⟩
    · by_cases hne : i = k
      · subst hne
        simp [List.getElem?_set_self, hsl, hk]
      · change (F.status.set k .frozen)[i]? ≠ _
        rw [List.getElem?_set_ne (Ne.symm hne)]
        exact h.plain i
    · by_cases hne : i = k
      · subst hne
        left
        change (F.status.set i .frozen)[i]? = _
        rw [List.getElem?_set_self (by omega)]
      · change (F.status.set k .frozen)[i]? = _ ∨ _
        rw [List.getElem?_set_ne (Ne.symm hne)]
        exact hcase i hi hne c hc
  · rw [if_neg (by rw [FP.eq_real, FP.nat_real, Nat.cast_zero]; exact h0)] at ha
    cases ha
    refine ⟨hab, h.sd, by simpa using hcl, hsl, h.plain, fun i hi c hc => ?_⟩
    by_cases hne : i = k
    · subst hne
      right
      change (F.copy.set i _)[i]? = _ at hc
      rw [List.getElem?_set_self (by omega)] at hc
      cases hc
      exact (hval _ (List.getElem_mem _)).resolve_left h0
    · exact hcase i hi hne c hc

theorem Mir.mk' {F : FMM ℝ} {F' : FMM ℝ} (h : Mir F F') {G : FMM ℝ} (hc : G.copy = F.copy)
    (hs : ∀ i : Nat, F.status[i]? = some FMMStatus.frozen → G.status[i]? = some FMMStatus.frozen) : Mir G (flip G) :=
  ⟨rfl, fun i c e => (h.big i c (by rw [← hc]; exact e)).imp_left (hs i)⟩

theorem flip_frozenBorder (i : Nat) {t t' : FMM ℝ × Nat} (h : Mir t.1 t'.1 ∧ t.2 = t'.2) :
    Both (fun t t' => Mir t.1 t'.1 ∧ t.2 = t'.2) (frozenBorder m i t) (frozenBorder m i t') := by
  obtain ⟨F, q⟩ := t
  obtain ⟨F', q'⟩ := t'
  have h0 := h
  obtain ⟨hF, rfl⟩ : Mir F F' ∧ q = q' := h
  obtain rfl := hF.eq
  refine Both.same (rd F.status i) fun st hst => Both.ite Iff.rfl (fun hn => ?_) fun _ => h0
  refine Both.bind (R := fun t t' => t' = t) (Both.forN rfl fun j _ a b hab => ?_) fun s s' _ hs => ?_
  · rw [hab]; exact flip_crossing F i j a
  obtain ⟨b, d0, d1⟩ := s
  rw [hs]
  refine Both.ite Iff.rfl (fun _ => ?_) fun _ => h0
  refine Both.bind (Both.rd_map (- ·) F.copy i) fun c c' _ hc => ?_
  obtain ⟨rfl, hc⟩ := hc
  have hstat : F.status[i]? = some FMMStatus.none := by
    by_cases hi : i < F.status.length
    · rw [rd_of_getElem? (List.getElem?_eq_getElem hi)] at hst
      rw [List.getElem?_eq_getElem hi, Except.ok.inj hst, hn]
    · rw [rd_ub (by omega)] at hst; cases hst
  have hne : c ≠ 0 := by
    rcases hF.big i c hc with h | h
    · rw [hstat] at h; cases h
    · rintro rfl
      rw [abs_zero] at h
      have : (0 : ℝ) < 1 / 2 ^ 52 := by positivity
      linarith
  refine Both.bind (Both.wr_map (- ·) F.sd i ?_) fun x x' _ hx => ?_
  · rcases lt_or_gt_of_ne hne with h | h
    · have e1 : FP.lt c (FP.nat 0) = true := (FP.lt_real _ _).2 (by simpa using h)
      have e2 : ¬ FP.lt (-c) (FP.nat 0) = true := fun h' => by
        have := (FP.lt_real _ _).1 h'
        rw [FP.nat_real, Nat.cast_zero] at this
        linarith
      simp only [e1, e2, if_true]
      exact (neg_neg _).symm
    · have e1 : ¬ FP.lt c (FP.nat 0) = true := fun h' => by
        have := (FP.lt_real _ _).1 h'
        rw [FP.nat_real, Nat.cast_zero] at this
        linarith
      have e2 : FP.lt (-c) (FP.nat 0) = true := (FP.lt_real _ _).2 (by rw [FP.nat_real, Nat.cast_zero]; linarith)
      simp only [e1, e2, if_true]
      rfl
  · obtain ⟨rfl, -⟩ := hx
    refine Both.same (wr F.status i .frozen) fun z hz => ?_
    have hzl : z = F.status.set i .frozen := by
      by_cases hi : i < F.status.length
      · rw [wr_eq _ hi] at hz; exact (Except.ok.inj hz).symm
      · rw [wr_ub _ (by omega)] at hz; cases hz
    refine ⟨hF.mk' (G := { F with sd := x, status := z }) rfl fun k hk => ?_, rfl⟩
    change z[k]? = _
    rw [hzl, List.getElem?_set]
    split_ifs with h1 h2
    · rfl
    · subst h1
      rw [hstat] at hk; cases hk
    · exact hk

/-- The first phase. -/
theorem flip_initialiseFrozen {sd : List ℝ} (hsd : sd.length = m.nNodes) (hval : ∀ v ∈ sd, v = 0 ∨ 1 / 2 ^ 52 < |v|) {F : FMM ℝ} (h1 : F.sd = sd)
    (h2 : F.copy.length = m.nNodes) (h3 : F.status = List.replicate m.nNodes .none) (F' : FMM ℝ) (hF : F' = flip F) :
    Both Mir (initialiseFrozen m F) (initialiseFrozen m F') := by
  have h0 : Zr m.nNodes sd 0 (F, 0) (F', 0) := by
    refine ⟨by rw [hF], h1, h2, by rw [h3]; simp, fun i => ?_, fun i hi => absurd hi (Nat.not_lt_zero i)⟩
    change F.status[i]? ≠ _
    rw [h3, List.getElem?_replicate]
    split_ifs <;> simp
  refine Both.bind (Both.forN' (Zr m.nNodes sd) h0 fun k hk t t' h => zr_step hsd hval hk h) fun t t' _ ht => ?_
  refine Both.bind (R := fun t t' => Mir t.1 t'.1 ∧ t.2 = t'.2) (Both.forN ⟨⟨by rw [ht.eq], fun i c hc => ?_⟩, by rw [ht.eq]⟩ fun i _ a b hab => flip_frozenBorder i hab) fun s s' _ hs => ?_
  · by_cases hi : i < m.nNodes
    · exact ht.big i hi c hc
    · rw [List.getElem?_eq_none (by rw [ht.copy]; omega)] at hc; cases hc
  · obtain ⟨G, q⟩ := s
    obtain ⟨G', q'⟩ := s'
    obtain ⟨hG, rfl⟩ : Mir G G' ∧ q = q' := hs
    exact Both.same (check (decide (0 < q))) fun _ _ => hG

theorem flip_initialiseHeap (h : Mir F F') : Both Mir (initialiseHeap m F) (initialiseHeap m F') := by
  obtain rfl := h.eq
  exact Both.same (forN m.nNodes 0 fun i n => rd F.status i >>= fun st => pure (if st = .none then n + 1 else n)) fun k _ =>
    h.mk' (G := { F with heap := Heap.new k F.isTest }) rfl fun _ hi => hi

theorem fabs_neg (v : ℝ) : FP.abs (-v) = FP.abs v := _root_.abs_neg v

theorem rd_ok {α : Type} {l : List α} {i : Nat} {a : α} (h : rd l i = .ok a) : l[i]? = some a := by
  by_cases hi : i < l.length
  · rw [rd_of_getElem? (List.getElem?_eq_getElem hi)] at h
    rw [List.getElem?_eq_getElem hi, Except.ok.inj h]
  · rw [rd_ub (by omega)] at h; cases h

theorem wr_ok {α : Type} {l z : List α} {i : Nat} {a : α} (h : wr l i a = .ok z) : z = l.set i a := by
  by_cases hi : i < l.length
  · rw [wr_eq _ hi] at h; exact (Except.ok.inj h).symm
  · rw [wr_ub _ (by omega)] at h; cases h

theorem keep_frozen {l : List FMMStatus} {i : Nat} {st st' : FMMStatus} (hst : l[i]? = some st) (hf : st ≠ .frozen) (k : Nat) (h : l[k]? = some FMMStatus.frozen) :
    (l.set i st')[k]? = some FMMStatus.frozen := by
  rw [List.getElem?_set]
  split_ifs with h1 h2
  · subst h1; rw [hst] at h; exact absurd (Option.some.inj h) hf
  · subst h1; rw [hst] at h; exact absurd (Option.some.inj h) hf
  · exact h

theorem Mir.ne (h : Mir F F') {i : Nat} {st : FMMStatus} (hst : F.status[i]? = some st) (hf : st ≠ .frozen) (c : ℝ) (hc : F.copy[i]? = some c) : 1 / 2 ^ 52 < |c| :=
  (h.big i c hc).resolve_left fun e => hf (Option.some.inj (hst.symm.trans e))

theorem flip_makeTrial (h : Mir F F') {i : Nat} {st : FMMStatus} (hst : F.status[i]? = some st) (hf : st ≠ .frozen) {d d' : ℝ} (hd : d' = -d) :
    Both Mir (makeTrial i d F) (makeTrial i d' F') := by
  obtain rfl := h.eq
  rw [hd]
  refine Both.same (wr F.status i .trial) fun z hz => ?_
  rw [fabs_neg]
  refine Both.same (F.heap.push i (FP.abs d)) fun x _ => Both.same (wr F.heapPtr i x.1) fun hp _ => ?_
  refine h.mk' (G := { F with status := z, heap := x.2, heapPtr := hp }) rfl fun k hk => ?_
  change z[k]? = _
  rw [wr_ok hz]
  exact keep_frozen hst hf k hk

theorem flip_newTrial (h : Mir F F') {i : Nat} {st : FMMStatus} (hst : F.status[i]? = some st) (hf : st ≠ .frozen) :
    Both Mir (newTrial m i F) (newTrial m i F') := by
  obtain rfl := h.eq
  refine Both.same (wr F.status i .trial) fun z hz => ?_
  refine Both.bind (flip_updateNode { F with status := z } i fun c hc => h.ne hst hf c hc) fun d d' _ hd => ?_
  refine Both.bind (Both.wr_map (- ·) F.sd i hd) fun x x' _ hx => ?_
  obtain ⟨rfl, -⟩ := hx
  refine Both.bind (Both.rd_map (- ·) x i) fun v v' _ hv => ?_
  obtain ⟨rfl, -⟩ := hv
  beta_reduce
  rw [fabs_neg]
  refine Both.same (F.heap.push i (FP.abs v)) fun y _ => Both.same (wr F.heapPtr i y.1) fun hp _ => ?_
  refine h.mk' (G := { F with status := z, sd := x, heap := y.2, heapPtr := hp }) rfl fun k hk => ?_
  change z[k]? = _
  rw [wr_ok hz]
  exact keep_frozen hst hf k hk

theorem flip_admissible (F : FMM ℝ) (i : Nat) : admissible m (flip F) i = admissible m F i := rfl

theorem flip_trialNbr (i j : Nat) (h : Mir F F') : Both Mir (trialNbr m i j F) (trialNbr m i j F') := by
  obtain rfl := h.eq
  refine Both.same (nbr m i j) fun k _ => Both.ite Iff.rfl (fun _ => ?_) fun _ => h
  refine Both.same (rd F.status k) fun sk _ => Both.ite Iff.rfl (fun _ => ?_) fun _ => h
  refine Both.same (rd F.status i) fun si hsi => Both.ite Iff.rfl (fun hn => ?_) fun _ => h
  refine Both.same (admissible m F i) fun ok _ => Both.ite Iff.rfl (fun _ => ?_) fun _ => h
  exact flip_newTrial h (rd_ok hsi) (by rw [hn]; decide)

theorem flip_initialiseTrial (h : Mir F F') : Both Mir (initialiseTrial m F) (initialiseTrial m F') := by
  refine Both.forN h fun i _ G G' hG => ?_
  obtain rfl := hG.eq
  refine Both.same (rd G.status i) fun si _ => Both.ite Iff.rfl (fun _ => ?_) fun _ => hG
  exact Both.forN hG fun j _ H H' hH => flip_trialNbr i j hH

theorem flip_frontNbr (F : FMM ℝ) (node i : Nat) (s : (Bool × ℝ × ℝ × ℝ) × (Bool × ℝ × ℝ × ℝ)) :
    Both (fun t t' => t' = t) (frontNbr m F node i s) (frontNbr m (flip F) node i s) := by
  refine Both.same (nbr m node i) fun k _ => Both.ite Iff.rfl (fun _ => ?_) fun _ => rfl
  refine Both.same (rd F.status k) fun sk _ => Both.ite Iff.rfl (fun _ => ?_) fun _ => rfl
  refine Both.bind (Both.rd_map (- ·) F.sd k) fun v v' _ hv => ?_
  obtain ⟨rfl, -⟩ := hv
  beta_reduce
  rw [fabs_neg]
  refine Both.ite Iff.rfl (fun _ => ?_) fun _ => rfl
  refine Both.bind (Both.rd_map (- ·) F.sd node) fun w w' _ hw => ?_
  obtain ⟨rfl, -⟩ := hw
  refine Both.same (rd F.vel k) fun u _ => ?_
  have e : FP.abs (FP.sub (-w) (-v)) = FP.abs (FP.sub w v) := by
    change |(-w) - (-v)| = |w - v|
    rw [← abs_neg]
    congr 1
    ring
  beta_reduce
  rw [e]
  exact Both.ok rfl

theorem flip_finalise (addr : Nat) (h : Mir F F') : Both Mir (finalise m addr F) (finalise m addr F') := by
  obtain rfl := h.eq
  refine Both.ite Iff.rfl (fun _ => ?_) fun _ => h
  refine Both.bind (R := fun t t' => t' = t) (Both.forN rfl fun j _ a b hab => ?_) fun s s' _ hs => ?_
  · rw [hab]; exact flip_frontNbr F addr j a
  rw [hs]
  obtain ⟨⟨_, _, d0, v0⟩, ⟨_, _, d1, v1⟩⟩ := s
  refine Both.same (check _) fun _ _ => Both.same (wr F.vel addr _) fun w _ => ?_
  exact h.mk' (G := { F with vel := w }) rfl fun _ hk => hk

/-- State of the main loop: the object, the list of nodes to freeze and their number. -/
def MirS (s s' : FMM ℝ × List Nat × Nat) : Prop := Mir s.1 s'.1 ∧ s'.2 = s.2

theorem flip_popFreeze {s s' : FMM ℝ × List Nat × Nat} (h : MirS s s') :
    Both (fun t t' => t'.1 = t.1 ∧ MirS t.2 t'.2) (popFreeze m s) (popFreeze m s') := by
  obtain ⟨F, l, n⟩ := s
  obtain ⟨F', l', n'⟩ := s'
  obtain ⟨hF, hl⟩ := h
  cases hl
  obtain rfl := hF.eq
  refine Both.same F.heap.pop fun x _ => Both.same (wr F.status x.1 .frozen) fun z hz => ?_
  have hG : Mir { F with heap := x.2.2, status := z } (flip { F with heap := x.2.2, status := z }) := by
    refine hF.mk' rfl fun k hk => ?_
    change z[k]? = _
    rw [wr_ok hz, List.getElem?_set]
    split_ifs with h1 h2
    · rfl
    · subst h1
      exact absurd (List.getElem?_eq_some_iff.1 hk).1 h2
    · exact hk
  refine Both.bind (flip_finalise x.1 hG) fun G G' _ hG' => ?_
  exact Both.same (wr l n x.1) fun w _ => ⟨rfl, hG', rfl⟩

theorem flip_popEqual (value : ℝ) {s s' : FMM ℝ × List Nat × Nat} (h : MirS s s') : Both MirS (popEqual m value s) (popEqual m value s') := by
  have hsz : s'.1.heap = s.1.heap := by rw [h.1.eq]; rfl
  unfold popEqual
  rw [hsz]
  refine Both.bind (R := fun t t' => MirS t.1 t'.1 ∧ t'.2 = t.2) (Both.whileN (fun a b hab => by rw [hab.2]) (fun a b hab _ => ?_) _ _ _ ⟨h, rfl⟩) fun t t' _ ht => ?_
  · obtain ⟨⟨hab, hr⟩, -⟩ := hab
    have he : peekEqual value b.1.1 = peekEqual value a.1.1 := by rw [hab.eq]; rfl
    rw [he]
    refine Both.same (peekEqual value a.1.1) fun more _ => Both.ite Iff.rfl (fun _ => ?_) fun _ => ⟨⟨hab, hr⟩, rfl⟩
    exact Both.bind (flip_popFreeze ⟨hab, hr⟩) fun u u' _ hu => ⟨hu.2, rfl⟩
  · exact ht.1

theorem flip_refresh (h : Mir F F') {i : Nat} {st : FMMStatus} (hst : F.status[i]? = some st) (hf : st ≠ .frozen) :
    Both Mir (refresh m i F) (refresh m i F') := by
  obtain rfl := h.eq
  refine Both.bind (flip_updateNode F i fun c hc => h.ne hst hf c hc) fun d d' _ hd => ?_
  refine Both.bind (Both.wr_map (- ·) F.sd i hd) fun x x' _ hx => ?_
  obtain ⟨rfl, -⟩ := hx
  rw [hd]
  refine Both.same (rd F.heapPtr i) fun k _ => ?_
  rw [fabs_neg]
  refine Both.same (F.heap.set k (FP.abs d)) fun y _ => ?_
  exact h.mk' (G := { F with sd := x, heap := y }) rfl fun _ hk => hk

theorem flip_visit (h : Mir F F') {i : Nat} {st : FMMStatus} (hst : F.status[i]? = some st) (hf : st ≠ .frozen) {d d' : ℝ} (hd : d' = -d) :
    Both Mir (visit m i st d F) (visit m i st d' F') := by
  obtain rfl := h.eq
  refine Both.ite Iff.rfl (fun _ => ?_) fun _ => Both.ite Iff.rfl (fun _ => ?_) fun _ => h
  · refine Both.same (rd F.heapPtr i) fun k _ => ?_
    rw [hd, fabs_neg]
    refine Both.same (F.heap.set k (FP.abs d)) fun y _ => ?_
    exact h.mk' (G := { F with heap := y }) rfl fun _ hk => hk
  · exact Both.same (admissible m F i) fun ok _ => Both.ite Iff.rfl (fun _ => flip_makeTrial h hst hf hd) fun _ => h

theorem flip_spreadNbr (addr j : Nat) (h : Mir F F') : Both Mir (spreadNbr m addr j F) (spreadNbr m addr j F') := by
  obtain rfl := h.eq
  refine Both.same (nbr m addr j) fun k _ => Both.ite Iff.rfl (fun _ => ?_) fun _ => h
  refine Both.same (rd F.status k) fun st hst => Both.ite Iff.rfl (fun hf => ?_) fun _ => h
  refine Both.bind (flip_updateNode F k fun c hc => h.ne (rd_ok hst) hf c hc) fun d d' _ hd => ?_
  refine Both.bind (Both.wr_map (- ·) F.sd k hd) fun x x' _ hx => ?_
  obtain ⟨rfl, -⟩ := hx
  refine Both.bind (flip_visit (h.mk' (G := { F with sd := x }) rfl fun _ hk => hk) (rd_ok hst) hf hd) fun G G' _ hG => ?_
  obtain rfl := hG.eq
  refine Both.same (nbr m k j) fun k' _ => Both.ite Iff.rfl (fun _ => ?_) fun _ => hG
  refine Both.same (rd G.status k') fun st' hst' => Both.ite Iff.rfl (fun ht => ?_) fun _ => hG
  exact flip_refresh hG (rd_ok hst') (by rw [ht]; decide)

theorem flip_solveStep {s s' : FMM ℝ × List Nat} (h : Mir s.1 s'.1 ∧ s'.2 = s.2) :
    Both (fun t t' => Mir t.1 t'.1 ∧ t'.2 = t.2) (solveStep m s) (solveStep m s') := by
  refine Both.bind (flip_popFreeze (s := (s.1, s.2, 0)) (s' := (s'.1, s'.2, 0)) ⟨h.1, by rw [h.2]⟩) fun t t' _ ht => ?_
  obtain ⟨v, t⟩ := t
  obtain ⟨v', t'⟩ := t'
  obtain ⟨rfl, ht⟩ : v' = v ∧ MirS t t' := ht
  refine Both.bind (flip_popEqual v' ht) fun u u' _ hu => ?_
  obtain ⟨G, l, n⟩ := u
  obtain ⟨G', l', n'⟩ := u'
  obtain ⟨hG, hl⟩ := hu
  cases hl
  refine Both.bind (R := Mir) (Both.forN hG fun i _ H H' hH => ?_) fun H H' _ hH => ⟨hH, rfl⟩
  exact Both.same (rd l i) fun addr _ => Both.forN hH fun j _ K K' hK => flip_spreadNbr addr j hK

theorem flip_solve (h : Mir F F') : Both Mir (solve m F) (solve m F') := by
  have he : F'.heap = F.heap := by rw [h.eq]; rfl
  unfold solve
  rw [he]
  refine Both.bind (R := fun (t t' : FMM ℝ × List Nat) => Mir t.1 t'.1 ∧ t'.2 = t.2)
    (Both.whileN (fun a b hab => by rw [hab.1.eq]; rfl) (fun a b hab _ => flip_solveStep hab) _ _ _ ⟨h, rfl⟩) fun t t' _ ht => ht.1

/-- Reinitialisation of the mirror image. -/
theorem flip_marchDistance {sd : List ℝ} (hsd : sd.length = m.nNodes) (hval : ∀ v ∈ sd, v = 0 ∨ 1 / 2 ^ 52 < |v|) (b : Bool) :
    Both (fun F F' => F' = flip F) (marchDistance m sd (FMM.new m b)) (marchDistance m (sd.map (- ·)) (FMM.new m b)) := by
  refine Both.bind (flip_initialiseFrozen hsd hval rfl (by simp [FMM.new]) rfl _ ?_) fun F F' _ hF => ?_
  · simp [FMM.new, flip, FP.nat_real]
  refine Both.bind (flip_initialiseHeap hF) fun G G' _ hG => ?_
  refine Both.bind (flip_initialiseTrial hG) fun H H' _ hH => ?_
  exact (flip_solve hH).mono fun _ _ _ _ h => h.eq

/-- Extension of the velocity field for the mirror image. -/
theorem flip_marchVelocity {sd : List ℝ} (hsd : sd.length = m.nNodes) (hval : ∀ v ∈ sd, v = 0 ∨ 1 / 2 ^ 52 < |v|) (vel : List ℝ) (b : Bool) :
    Both (fun F F' => F' = flip F) (marchVelocity m sd vel (FMM.new m b)) (marchVelocity m (sd.map (- ·)) vel (FMM.new m b)) := by
  refine Both.bind (flip_initialiseFrozen hsd hval rfl (by simp [FMM.new]) rfl _ ?_) fun F F' _ hF => ?_
  · simp [FMM.new, flip, FP.nat_real]
  refine Both.bind (flip_initialiseHeap hF) fun G G' _ hG => ?_
  refine Both.bind (flip_initialiseTrial hG) fun H H' _ hH => ?_
  refine Both.bind (flip_solve hH) fun K K' _ hK => ?_
  obtain rfl := hK.eq
  exact Both.ok rfl

end FMM

end Slsm
