import Verif.Spec.Program
import Verif.Props.Area
import Verif.Props.Sensitivity
import Verif.Props.Optimise

/-! # Programs: lemmas -/

set_option linter.unusedSectionVars false

namespace Slsm

section
variable {α β : Type}

theorem modAt_append {pre post : List α} {a : α} {f : α → Res α} :
    modAt (pre ++ a :: post) pre.length f = f a >>= fun b => .ok (pre ++ b :: post) := by
  unfold modAt
  rw [rd_eq_ok.2 (by simp : (pre ++ a :: post)[pre.length]? = some a)]
  simp only [bind, Except.bind]
  cases f a with
  | error e => rfl
  | ok b => simp only [wr_eq _ (show pre.length < (pre ++ a :: post).length by simp), List.set_append_right _ _ (le_refl _)]; simp

/-- A loop that changes each entry of a list by the same function. -/
theorem forN_modAt {l v : List α} {f : α → Res α} :
    forN l.length l (fun i l => modAt l i f) = .ok v ↔ List.Forall₂ (fun a b => f a = .ok b) l v := by
  constructor
  · intro e
    have key := wp_forN (E := fun _ => True) (n := l.length) (s := l) (f := fun i l => modAt l i f)
      (fun i v => ∃ v', v = v' ++ l.drop i ∧ List.Forall₂ (fun a b => f a = .ok b) (l.take i) v') ⟨[], by simp⟩ (fun i hi v hv => ?_)
    · rw [e, wp_ok] at key
      obtain ⟨v', rfl, h⟩ := key
      simpa using h
    · obtain ⟨v', rfl, h⟩ := hv
      have hlen : v'.length = i := by rw [← h.length_eq, List.length_take]; omega
      rw [List.drop_eq_getElem_cons hi]
      have := modAt_append (pre := v') (post := l.drop (i + 1)) (a := l[i]) (f := f)
      rw [hlen] at this
      rw [this]
      cases hf : f l[i] with
      | error x => exact trivial
      | ok b =>
        show ∃ v'', _
        refine ⟨v' ++ [b], by simp, ?_⟩
        rw [List.take_succ, List.getElem?_eq_getElem hi]
        exact List.rel_append h (.cons hf .nil)
  · intro h
    have hl := h.length_eq
    have := forN_eq (n := l.length) (s := l) (f := fun i l => modAt l i f) (fun i => v.take i ++ l.drop i) (by simp) fun i hi => by
      have hi' : i < v.length := hl ▸ hi
      have hf : f l[i] = .ok v[i] := h.get hi hi'
      have := modAt_append (pre := v.take i) (post := l.drop (i + 1)) (a := l[i]) (f := f)
      rw [List.length_take, min_eq_left (by omega)] at this
      rw [List.drop_eq_getElem_cons hi, this, hf]
      simp only [bind, Except.bind]
      rw [← List.take_concat_get' v i hi', List.append_assoc]
      rfl
    rw [this]
    simp [hl]

theorem forall₂_exists {R : α → β → Prop} {l : List α} (h : ∀ a ∈ l, ∃ b, R a b) : ∃ v, List.Forall₂ R l v := by
  induction l with
  | nil => exact ⟨[], .nil⟩
  | cons a t ih =>
    obtain ⟨b, hb⟩ := h a (by simp)
    obtain ⟨v, hv⟩ := ih fun x hx => h x (by simp [hx])
    exact ⟨b :: v, .cons hb hv⟩

theorem forN_modAt_safe {l : List α} {f : α → Res α} (h : ∀ a ∈ l, ∃ b, f a = .ok b) :
    ∃ v, forN l.length l (fun i l => modAt l i f) = .ok v := by
  obtain ⟨v, hv⟩ := forall₂_exists h
  exact ⟨v, forN_modAt.2 hv⟩

theorem forall₂_get {R : α → β → Prop} {l : List α} {v : List β} (h : List.Forall₂ R l v) {i : Nat} {a : α} (hi : l[i]? = some a) :
    ∃ b, v[i]? = some b ∧ R a b := by
  obtain ⟨h1, h2⟩ := List.getElem?_eq_some_iff.1 hi
  have h1' : i < v.length := h.length_eq ▸ h1
  exact ⟨v[i], List.getElem?_eq_getElem h1', by rw [← h2]; exact h.get h1 h1'⟩

theorem forall₂_get' {R : α → β → Prop} {l : List α} {v : List β} (h : List.Forall₂ R l v) {i : Nat} {b : β} (hi : v[i]? = some b) :
    ∃ a, l[i]? = some a ∧ R a b := by
  obtain ⟨h1, h2⟩ := List.getElem?_eq_some_iff.1 hi
  have h1' : i < l.length := h.length_eq ▸ h1
  exact ⟨l[i], List.getElem?_eq_getElem h1', by rw [← h2]; exact h.get h1' h1⟩

theorem forall₂_mem' {R : α → β → Prop} {l : List α} {v : List β} (h : List.Forall₂ R l v) {b : β} (hb : b ∈ v) : ∃ a ∈ l, R a b := by
  obtain ⟨i, hi⟩ := List.mem_iff_getElem?.1 hb
  obtain ⟨a, ha, hr⟩ := forall₂_get' h hi
  exact ⟨a, List.mem_of_getElem? ha, hr⟩

theorem forall₂_mem {R : α → β → Prop} {l : List α} {v : List β} (h : List.Forall₂ R l v) {a : α} (ha : a ∈ l) : ∃ b ∈ v, R a b := by
  obtain ⟨i, hi⟩ := List.mem_iff_getElem?.1 ha
  obtain ⟨b, hb, hr⟩ := forall₂_get h hi
  exact ⟨b, List.mem_of_getElem? hb, hr⟩

theorem forall₂_of_get {R : α → β → Prop} {l : List α} {v : List β} (hl : v.length = l.length)
    (h : ∀ (i : Nat) (a : α), l[i]? = some a → ∃ b, v[i]? = some b ∧ R a b) : List.Forall₂ R l v := by
  rw [List.forall₂_iff_get]
  refine ⟨hl.symm, fun i h1 h2 => ?_⟩
  obtain ⟨b, hb, hr⟩ := h i l[i] (List.getElem?_eq_getElem h1)
  rw [List.getElem?_eq_getElem h2] at hb
  cases hb
  exact hr

theorem forall₂_comp {γ : Type} {R : α → β → Prop} {S : β → γ → Prop} {T : α → γ → Prop} (hT : ∀ a b c, R a b → S b c → T a c)
    {l : List α} {m : List β} {v : List γ} (h1 : List.Forall₂ R l m) (h2 : List.Forall₂ S m v) : List.Forall₂ T l v := by
  induction h1 generalizing v with
  | nil => cases h2; exact .nil
  | cons hr _ ih => cases h2 with | cons hs ht => exact .cons (hT _ _ _ hr hs) (ih ht)

end

namespace Program

open LevelSet

section
variable {ρ D : Type} [FP D] {b b' : Boundary D} {L L' : LevelSet D}

theorem setSensitivity_ok {k : Nat} {value : BoundaryPoint D → Res D} (e : setSensitivity k value b = .ok b') :
    b' = { b with points := b'.points } ∧ List.Forall₂ (fun p p' => ∃ v, value p = .ok v ∧ k < p.sensitivities.length ∧
      p' = { p with sensitivities := p.sensitivities.set k v }) b.points b'.points := by
  unfold setSensitivity at e
  rcases hf : forN b.points.length b.points _ with x | v
  · rw [hf] at e; cases e
  · rw [hf] at e
    cases e
    refine ⟨rfl, (forN_modAt.1 hf).imp fun p p' h => ?_⟩
    rcases hv : value p with x | v
    · rw [hv] at h; cases h
    · rw [hv] at h
      simp only [bind, Except.bind] at h
      by_cases hk : k < p.sensitivities.length
      · rw [wr_eq _ hk] at h
        cases h
        exact ⟨v, rfl, hk, rfl⟩
      · unfold wr at h
        rw [if_neg hk] at h
        cases h

theorem setSensitivity_safe {k : Nat} {value : BoundaryPoint D → Res D}
    (h : ∀ p ∈ b.points, k < p.sensitivities.length ∧ ∃ v, value p = .ok v) : ∃ b', setSensitivity k value b = .ok b' := by
  unfold setSensitivity
  obtain ⟨v, hv⟩ := forN_modAt_safe (l := b.points) (f := fun p => value p >>= fun v => wr p.sensitivities k v >>= fun s =>
    pure { p with sensitivities := s }) fun p hp => by
      obtain ⟨hk, v, hv⟩ := h p hp
      rw [hv]
      simp only [bind, Except.bind]
      rw [wr_eq _ hk]
      exact ⟨_, rfl⟩
  rw [hv]
  exact ⟨_, rfl⟩

theorem ito_frame {delta T : D} (e : Sensitivity.itoCorrection delta b T = .ok b') :
    b' = { b with points := b'.points } ∧ List.Forall₂ SensOnly b.points b'.points := by
  by_cases hT : (T =. FP.nat 0) = true
  · unfold Sensitivity.itoCorrection at e
    rw [if_pos hT] at e
    cases e
    exact ⟨rfl, List.forall₂_same.2 fun p _ => ⟨rfl, rfl⟩⟩
  · obtain ⟨h1, h2, h3⟩ := Sensitivity.C55_local (by simpa using hT) e
    refine ⟨h1, forall₂_of_get h2 fun i p hp => ?_⟩
    obtain ⟨f1, f2, s0, -, -, -, h⟩ := h3 i p hp
    exact ⟨_, h, rfl, by rw [List.length_set]⟩

/-! ### Normal vectors -/

theorem normalOnly_wr {l l' v : List (BoundaryPoint D)} {k : Nat} {p : BoundaryPoint D} {n : Coord D} (h : List.Forall₂ NormalOnly l v)
    (hp : v[k]? = some p) (e : wr v k { p with normal := n } = .ok l') : List.Forall₂ NormalOnly l l' := by
  have hk := (List.getElem?_eq_some_iff.1 hp).1
  rw [wr_eq _ hk] at e
  cases e
  refine forall₂_of_get (by rw [List.length_set, h.length_eq]) fun i a ha => ?_
  obtain ⟨b, hb, hr⟩ := forall₂_get h ha
  by_cases hik : k = i
  · subst hik
    rw [hp] at hb
    cases hb
    refine ⟨_, List.getElem?_set_self hk, ?_⟩
    unfold NormalOnly at hr ⊢
    rw [hr]
  · exact ⟨b, by rw [List.getElem?_set_ne hik, hb], hr⟩

theorem normalOnly_modAt {l v : List (BoundaryPoint D)} {k : Nat} {g : BoundaryPoint D → BoundaryPoint D} (h : List.Forall₂ NormalOnly l v)
    (hg : ∀ p, NormalOnly p (g p)) : wp (modAt v k fun p => pure (g p)) (fun l' => List.Forall₂ NormalOnly l l') fun _ => True := by
  unfold modAt
  rcases hv : rd v k with x | p
  · exact trivial
  · rcases hw : wr v k (g p) with x | l'
    · simp only [bind, Except.bind, pure, Except.pure, hw]
      exact trivial
    · simp only [bind, Except.bind, pure, Except.pure, hw]
      rw [show g p = { p with normal := (g p).normal } from hg p] at hw
      exact normalOnly_wr h (rd_eq_ok.1 hv) hw

theorem normalPoint_frame {nd : Node D} {nx ny : D} {i : Nat} {l : List (BoundaryPoint D)} {s : List (BoundaryPoint D) × List Bool × List D}
    (h : List.Forall₂ NormalOnly l s.1) :
    wp (Boundary.normalPoint nd nx ny i s) (fun t => List.Forall₂ NormalOnly l t.1) fun _ => True := by
  obtain ⟨points, isSet, weight⟩ := s
  unfold Boundary.normalPoint
  dsimp only at h ⊢
  rw [wp_bind]
  rcases rd nd.boundaryPoints i with x | k
  · exact trivial
  rw [wp_ok, wp_bind]
  rcases hp : rd points k with x | p
  · exact trivial
  rw [wp_ok]
  have hp' := rd_eq_ok.1 hp
  refine wp_ite (fun _ => ?_) fun _ => ?_
  · rw [wp_bind]
    rcases hw : wr points k _ with x | v
    · exact trivial
    rw [wp_ok, wp_bind]
    rcases wr weight k _ with x | u
    · exact trivial
    rw [wp_ok, wp_bind]
    rcases wr isSet k _ with x | z
    · exact trivial
    exact normalOnly_wr h hp' hw
  · rw [wp_bind]
    rcases rd isSet k with x | st
    · exact trivial
    rw [wp_ok]
    refine wp_ite (fun _ => h) fun _ => ?_
    rw [wp_bind]
    rcases hw : wr points k _ with x | v
    · exact trivial
    rw [wp_ok, wp_bind]
    rcases rd weight k with x | u
    · exact trivial
    rw [wp_ok, wp_bind]
    rcases wr weight k _ with x | z
    · exact trivial
    exact normalOnly_wr h hp' hw

theorem normals_wp : wp (b.computeNormalVectors L) (fun b' => b' = { b with points := b'.points } ∧ List.Forall₂ NormalOnly b.points b'.points)
    fun _ => True := by
  unfold Boundary.computeNormalVectors
  rw [wp_bind]
  refine wp_imp (wp_forN (fun _ v => List.Forall₂ NormalOnly b.points v) (List.forall₂_same.2 fun p _ => rfl) fun i _ v hv =>
    normalOnly_modAt hv fun p => rfl) fun v hv => ?_
  rw [wp_bind]
  refine wp_imp (wp_forN (fun _ t => List.Forall₂ NormalOnly b.points t.1) hv fun i _ t ht => ?_) fun t ht => ?_
  · unfold Boundary.normalNode
    rw [wp_bind]
    rcases rd L.narrowBand i with x | node
    · exact trivial
    rw [wp_ok, wp_bind]
    rcases rd L.mesh.nodes node with x | nd
    · exact trivial
    rw [wp_ok]
    refine wp_ite (fun _ => ?_) fun _ => ht
    dsimp only
    rw [wp_bind]
    rcases Boundary.lineDiff _ _ _ with x | gx
    · exact trivial
    rw [wp_ok, wp_bind]
    rcases Boundary.lineDiff _ _ _ with x | gy
    · exact trivial
    rw [wp_ok]
    exact wp_forN (fun _ (t : List (BoundaryPoint D) × List Bool × List D) => List.Forall₂ NormalOnly b.points t.1) ht fun j _ t' ht' => normalPoint_frame ht'
  · obtain ⟨points, isSet, weight⟩ := t
    dsimp only at ht ⊢
    rw [wp_bind]
    refine wp_imp (wp_forN (fun _ v => List.Forall₂ NormalOnly b.points v) ht fun i _ v hv => ?_) fun v hv => ?_
    · rw [wp_bind]
      rcases rd weight i with x | q
      · exact trivial
      · exact normalOnly_modAt hv fun p => by unfold Boundary.unitNormal; split <;> rfl
    · exact ⟨rfl, hv⟩

theorem normals_frame (e : b.computeNormalVectors L = .ok b') :
    b' = { b with points := b'.points } ∧ List.Forall₂ NormalOnly b.points b'.points := by
  have := wp_of_ok normals_wp e
  exact this

/-! ### The programs are regular -/

theorem sens_refl {l : List (BoundaryPoint D)} : List.Forall₂ SensOnly l l := List.forall₂_same.2 fun _ _ => ⟨rfl, rfl⟩
theorem normal_refl {l : List (BoundaryPoint D)} : List.Forall₂ NormalOnly l l := List.forall₂_same.2 fun _ _ => rfl
theorem velocity_refl {l : List (BoundaryPoint D)} : List.Forall₂ VelocityOnly l l := List.forall₂_same.2 fun _ _ => rfl
theorem areas_refl {L : LevelSet D} : AreasOnly L L := ⟨rfl, List.forall₂_same.2 fun _ _ => rfl⟩

theorem SensOnly.trans {p q r : BoundaryPoint D} (h1 : SensOnly p q) (h2 : SensOnly q r) : SensOnly p r := by
  refine ⟨?_, h2.2.trans h1.2⟩
  have := h1.1
  have h := h2.1
  rw [this] at h
  exact h

theorem sens_trans {l m v : List (BoundaryPoint D)} (h1 : List.Forall₂ SensOnly l m) (h2 : List.Forall₂ SensOnly m v) :
    List.Forall₂ SensOnly l v := forall₂_comp (R := SensOnly) (S := SensOnly) (fun _ _ _ h1 h2 => h1.trans h2) h1 h2

theorem setSensitivity_frame {k : Nat} {value : BoundaryPoint D → Res D} (e : setSensitivity k value b = .ok b') :
    b' = { b with points := b'.points } ∧ List.Forall₂ SensOnly b.points b'.points := by
  obtain ⟨h1, h2⟩ := setSensitivity_ok e
  refine ⟨h1, h2.imp fun p p' ⟨v, _, _, hp⟩ => ?_⟩
  rw [hp]
  exact ⟨rfl, List.length_set⟩

theorem areas_frame (e : Area.computeAreaFractions L b = .ok L') : AreasOnly L L' := by
  obtain ⟨h1, h2, h3⟩ := C45_frame e
  refine ⟨h1, ?_⟩
  rw [List.forall₂_iff_get]
  refine ⟨h2.symm, fun i i1 i2 => ?_⟩
  obtain ⟨el, g1, g2, -⟩ := h3 i _ (List.getElem?_eq_getElem i2)
  rw [List.getElem?_eq_getElem i1] at g1
  cases g1
  exact g2

theorem addNoise_frame (normal : ρ → D × ρ) (noise : D) (points : List (BoundaryPoint D)) (g : ρ) :
    List.Forall₂ VelocityOnly points (addNoise normal noise points g).1 := by
  rw [addNoise_eq]
  dsimp only
  induction points generalizing g with
  | nil => exact .nil
  | cons p l ih => exact .cons rfl (ih _)

theorem noise_frame {normal : ρ → D × ρ} {points points' : List (BoundaryPoint D)} {dt dt' T scale : D} {g g' : ρ}
    (e : computeVelocitiesNoise normal points dt T g L = .ok (points', dt', scale, g', L')) :
    List.Forall₂ VelocityOnly points points' ∧ computeVelocities points' L = .ok L' := by
  unfold computeVelocitiesNoise at e
  generalize thermalStep L.moveLimit dt T = r at e
  obtain ⟨r1, r2⟩ := r
  dsimp only at e
  rcases hq : addNoise normal (FP.sqrt (FP.nat 2 *. T) /. FP.sqrt r1) points g with ⟨q1, q2⟩
  have hf := addNoise_frame normal (FP.sqrt (FP.nat 2 *. T) /. FP.sqrt r1) points g
  rw [hq] at e hf
  dsimp only at e hf
  rcases hv : computeVelocities q1 L with x | L2
  · rw [hv] at e; cases e
  · rw [hv] at e
    cases e
    exact ⟨hf, hv⟩

theorem plain_ok {points points' : List (BoundaryPoint D)} {dt dt' : D} {g g' : ρ} (e : plain points dt g L = .ok (points', dt', g', L')) :
    points' = points ∧ dt' = dt ∧ g' = g ∧ computeVelocities points L = .ok L' := by
  unfold plain at e
  rcases hc : computeVelocities points L with x | L1
  · rw [hc] at e; cases e
  · rw [hc] at e; cases e; exact ⟨rfl, rfl, rfl, rfl⟩

theorem regular_plain {points points' : List (BoundaryPoint D)} {dt dt' : D} {g g' : ρ} (e : plain points dt g L = .ok (points', dt', g', L')) :
    List.Forall₂ VelocityOnly points points' ∧ computeVelocities points' L = .ok L' := by
  obtain ⟨rfl, -, -, h⟩ := plain_ok e
  exact ⟨velocity_refl, h⟩

theorem regular_noisy {normal : ρ → D × ρ} {T : D} {points points' : List (BoundaryPoint D)} {dt dt' : D} {g g' : ρ}
    (e : noisy normal T points dt g L = .ok (points', dt', g', L')) :
    List.Forall₂ VelocityOnly points points' ∧ computeVelocities points' L = .ok L' := by
  unfold noisy at e
  rcases hc : computeVelocitiesNoise normal points dt T g L with x | ⟨a, a2, a3, a4, a5⟩
  · rw [hc] at e; cases e
  · rw [hc] at e; cases e; exact noise_frame hc

theorem regular_area : Regular (minimiseArea : Problem ρ D) where
  assign _ _ _ e := setSensitivity_frame e
  extend _ _ _ _ _ _ _ _ e := regular_plain e
  finish b L b' L' e := by cases e; exact ⟨rfl, normal_refl, areas_refl⟩

theorem regular_perimeter : Regular (minimisePerimeter : Problem ρ D) where
  assign _ _ _ e := setSensitivity_frame e
  extend _ _ _ _ _ _ _ _ e := regular_plain e
  finish b L b' L' e := by
    change (b.computeNormalVectors L >>= fun b => pure (b, L)) = _ at e
    rcases hc : b.computeNormalVectors L with x | b1
    · rw [hc] at e; cases e
    · rw [hc] at e; cases e
      obtain ⟨h1, h2⟩ := normals_frame hc
      exact ⟨h1, h2, areas_refl⟩

theorem regular_constrained (normal : ρ → D × ρ) (temperature maxArea : D) :
    Regular (minimisePerimeterConstrained normal temperature maxArea : Problem ρ D) where
  assign L b b' e := by
    change (setSensitivity 0 (perimeterSensitivity b) b >>= fun b' => setSensitivity 1 (fun _ => pure (FP.neg (FP.nat 1))) b' >>= fun b' =>
      Sensitivity.itoCorrection (FP.lit 1 10000) b' temperature) = _ at e
    rcases h1 : setSensitivity 0 (perimeterSensitivity b) b with x | b1
    · rw [h1] at e; cases e
    · rw [h1] at e
      simp only [bind, Except.bind] at e
      rcases h2 : setSensitivity 1 (fun _ => pure (FP.neg (FP.nat 1))) b1 with x | b2
      · rw [h2] at e; cases e
      · rw [h2] at e
        obtain ⟨f1, g1⟩ := setSensitivity_frame h1
        obtain ⟨f2, g2⟩ := setSensitivity_frame h2
        obtain ⟨f3, g3⟩ := ito_frame e
        refine ⟨?_, sens_trans (sens_trans g1 g2) g3⟩
        rw [f2, f1] at f3
        exact f3
  extend _ _ _ _ _ _ _ _ e := regular_noisy e
  finish b L b' L' e := by
    change (Area.computeAreaFractions L b >>= fun L => b.computeNormalVectors L >>= fun b => pure (b, L)) = _ at e
    rcases h1 : Area.computeAreaFractions L b with x | L1
    · rw [h1] at e; cases e
    · rw [h1] at e
      simp only [bind, Except.bind] at e
      rcases hc : b.computeNormalVectors L1 with x | b1
      · rw [hc] at e; cases e
      · rw [hc] at e; cases e
        obtain ⟨g1, g2⟩ := normals_frame hc
        exact ⟨g1, g2, areas_frame h1⟩

theorem regular_match (normal : ρ → D × ρ) (temperature : D) : Regular (shapeMatch normal temperature : Problem ρ D) where
  assign L b b' e := by
    change (setSensitivity 0 (fun p => mismatchSensitivity L p.coord) b >>= fun b =>
      Sensitivity.itoCorrection (FP.lit 1 10000) b temperature) = _ at e
    rcases h1 : setSensitivity 0 (fun p => mismatchSensitivity L p.coord) b with x | b1
    · rw [h1] at e; cases e
    · rw [h1] at e
      obtain ⟨f1, g1⟩ := setSensitivity_frame h1
      obtain ⟨f3, g3⟩ := ito_frame e
      refine ⟨?_, sens_trans g1 g3⟩
      rw [f1] at f3
      exact f3
  extend _ _ _ _ _ _ _ _ e := regular_noisy e
  finish b L b' L' e := by cases e; exact ⟨rfl, normal_refl, areas_refl⟩

theorem quiet_area : Quiet (minimiseArea : Problem ρ D) := fun _ _ _ _ _ _ _ _ e => ⟨(plain_ok e).1, (plain_ok e).2.1⟩
theorem quiet_perimeter : Quiet (minimisePerimeter : Problem ρ D) := fun _ _ _ _ _ _ _ _ e => ⟨(plain_ok e).1, (plain_ok e).2.1⟩

/-! ### States of a running program -/

theorem AreasOnly.refl (L : LevelSet D) : AreasOnly L L := ⟨rfl, List.forall₂_same.2 fun _ _ => rfl⟩

theorem AreasOnly.trans {L'' : LevelSet D} (A : AreasOnly L L') (B : AreasOnly L' L'') : AreasOnly L L'' := by
  refine ⟨?_, forall₂_comp (fun _ _ _ h1 h2 => ?_) A.elements B.elements⟩
  · rw [B.eq, A.eq]
  · rw [h2, h1]

theorem AreasOnly.grid {w h : Nat} (A : AreasOnly L L') (G : IsGrid w h L.mesh) : IsGrid w h L'.mesh := by
  have hm : L'.mesh = { L.mesh with elements := L'.mesh.elements } := by rw [A.eq]
  have key : ∀ (i : Nat) (el' : Element D), L'.mesh.elements[i]? = some el' → ∃ el, L.mesh.elements[i]? = some el ∧ el' = { el with area := el'.area } :=
    fun i el' hi => forall₂_get' A.elements hi
  have hl := A.elements.length_eq
  rw [hm] at key hl ⊢
  dsimp only at key hl
  refine ⟨G.w_pos, G.h_pos, G.width, G.height, G.nNodes, G.nElements, G.nodes_length, hl ▸ G.elements_length, G.coord, G.neighbours, G.isDomain,
    G.cells, G.slots, fun x y el' hx hy he => ?_, fun x y el' hx hy he => ?_, fun e el' he => ?_, G.xy_length, G.xy_col, G.xy⟩
  · obtain ⟨el, h1, h2⟩ := key _ _ he
    rw [h2]; exact G.centre x y el hx hy h1
  · obtain ⟨el, h1, h2⟩ := key _ _ he
    rw [h2]; exact G.corner x y el hx hy h1
  · obtain ⟨el, h1, h2⟩ := key _ _ he
    rw [h2]; exact G.segSlots e el h1

theorem AreasOnly.reachable {w h : Nat} (A : AreasOnly L L') (hr : Reachable w h L) : Reachable w h L' := by
  have : Call w h L { L with mesh := L'.mesh, area := L'.area } := .annotate _ _ (A.grid hr.core.grid) fun i => by rw [A.eq]; rfl
  refine .call hr ?_
  rw [show L' = { L with mesh := L'.mesh, area := L'.area } by rw [A.eq]]
  exact this

end

section
variable {ρ D : Type} [FP D] {P : Problem ρ D} {nlopt : Optimise D → NLoptRun D} {fuel : Nat} {dt : D} {s s' : State ρ D}

/-- One pass of the first part of the loop, taken apart. -/
structure Advanced (P : Problem ρ D) (nlopt : Optimise D → NLoptRun D) (fuel : Nat) (dt : D) (s s' : State ρ D) (b : Boundary D) (ds : List D)
    (o o' : Optimise D) (obj : D) (pts : List (BoundaryPoint D)) (dt' : D) (g : ρ) (L1 L2 : LevelSet D) (r : Bool) (L3 : LevelSet D) : Prop where
  assign : P.assign s.levelSet s.boundary = .ok b
  dists : P.distances s.levelSet = .ok ds
  new : Optimise.new b.points ds s.lambdas dt s.levelSet.moveLimit false [] = .ok o
  solve : o.solve nlopt fuel = .ok (o', obj)
  extend : P.extend o'.points o'.timeStep s.rng s.levelSet = .ok (pts, dt', g, L1)
  grads : L1.computeGradients = .ok L2
  update : L2.update dt' = .ok (r, L3)
  periodic : periodic r s.nReinit L3 = .ok (s'.levelSet, s'.nReinit)
  boundary : s'.boundary = { b with points := pts }
  lambdas : s'.lambdas = o'.lambdas
  time : s'.runningTime = s.runningTime +. dt'
  rng : s'.rng = g

theorem advance_ok (e : advance P nlopt fuel dt s = .ok s') : ∃ b ds o o' obj pts dt' g L1 L2 r L3,
    Advanced P nlopt fuel dt s s' b ds o o' obj pts dt' g L1 L2 r L3 := by
  unfold advance at e
  rcases h1 : P.assign s.levelSet s.boundary with x | b
  · rw [h1] at e; cases e
  rw [h1] at e
  simp only [bind, Except.bind] at e
  rcases h0 : P.distances s.levelSet with x | ds
  · rw [h0] at e; cases e
  rw [h0] at e
  dsimp only at e
  rcases h2 : Optimise.new b.points ds s.lambdas dt s.levelSet.moveLimit false [] with x | o
  · rw [h2] at e; cases e
  rw [h2] at e
  dsimp only at e
  rcases h3 : o.solve nlopt fuel with x | ⟨o', obj⟩
  · rw [h3] at e; cases e
  rw [h3] at e
  dsimp only at e
  rcases h4 : P.extend o'.points o'.timeStep s.rng s.levelSet with x | ⟨pts, dt', g, L1⟩
  · rw [h4] at e; cases e
  rw [h4] at e
  dsimp only at e
  rcases h5 : L1.computeGradients with x | L2
  · rw [h5] at e; cases e
  rw [h5] at e
  dsimp only at e
  rcases h6 : L2.update dt' with x | ⟨r, L3⟩
  · rw [h6] at e; cases e
  rw [h6] at e
  dsimp only at e
  rcases h7 : periodic r s.nReinit L3 with x | ⟨L4, n⟩
  · rw [h7] at e; cases e
  rw [h7] at e
  cases e
  exact ⟨b, ds, o, o', obj, pts, dt', g, L1, L2, r, L3, h1, h0, h2, h3, h4, h5, h6, h7, rfl, rfl, rfl, rfl⟩

theorem step_ok (e : step P nlopt fuel dt s = .ok s') : ∃ t, advance P nlopt fuel dt s = .ok t ∧ refresh P t = .ok s' := by
  unfold step at e
  rcases h : advance P nlopt fuel dt s with x | t
  · rw [h] at e; cases e
  · rw [h] at e; exact ⟨t, rfl, e⟩

theorem refresh_ok (e : refresh P s = .ok s') : ∃ b0 L0, Boundary.discretise s.levelSet false = .ok (b0, L0) ∧
    P.finish b0 L0 = .ok (s'.boundary, s'.levelSet) ∧ s' = { s with levelSet := s'.levelSet, boundary := s'.boundary } := by
  unfold refresh at e
  rcases h1 : Boundary.discretise s.levelSet false with x | ⟨b0, L0⟩
  · rw [h1] at e; cases e
  rw [h1] at e
  simp only [bind, Except.bind] at e
  rcases h2 : P.finish b0 L0 with x | ⟨b1, L1⟩
  · rw [h2] at e; cases e
  rw [h2] at e
  cases e
  exact ⟨b0, L0, rfl, h2, rfl⟩

theorem start_ok {L : LevelSet D} {n : Nat} {g : ρ} (e : start P L n g = .ok s) : ∃ L1, L.reinitialise = .ok L1 ∧ launch P L1 n g = .ok s := by
  unfold start at e
  rcases h : L.reinitialise with x | t
  · rw [h] at e; cases e
  · rw [h] at e; exact ⟨t, rfl, e⟩

theorem periodic_ok {r : Bool} {n n' : Nat} {L L' : LevelSet D} (e : periodic r n L = .ok (L', n')) :
    (r = true ∧ L' = L ∧ n' = 1) ∨ (r = false ∧ n = 20 ∧ L.reinitialise = .ok L' ∧ n' = 1) ∨ (r = false ∧ n ≠ 20 ∧ L' = L ∧ n' = n + 1) := by
  unfold periodic at e
  split at e
  · cases e; exact .inl ⟨by assumption, rfl, rfl⟩
  · rename_i hr
    split at e
    · rename_i hn
      rcases h : L.reinitialise with x | t
      · rw [h] at e; cases e
      · rw [h] at e; cases e; exact .inr (.inl ⟨by simpa using hr, hn, rfl, rfl⟩)
    · cases e; exact .inr (.inr ⟨by simpa using hr, by assumption, rfl, rfl⟩)

variable {w h : Nat}

theorem Advanced.reachable (hP : Regular P) (hr : Reachable w h s.levelSet) {b : Boundary D} {o o' : Optimise D} {obj : D}
    {pts : List (BoundaryPoint D)} {dt' : D} {g : ρ} {L1 L2 : LevelSet D} {r : Bool} {L3 : LevelSet D}
    (A : Advanced P nlopt fuel dt s s' b ds o o' obj pts dt' g L1 L2 r L3) :
    Reachable w h L1 ∧ Reachable w h L2 ∧ Reachable w h L3 ∧ Reachable w h s'.levelSet := by
  have r1 : Reachable w h L1 := .call hr (.velocities _ (hP.extend _ _ _ _ _ _ _ _ A.extend).2)
  have r2 : Reachable w h L2 := .call r1 (.gradients A.grads)
  have r3 : Reachable w h L3 := .call r2 (.update _ _ A.update)
  refine ⟨r1, r2, r3, ?_⟩
  rcases periodic_ok A.periodic with ⟨-, h1, -⟩ | ⟨-, -, h1, -⟩ | ⟨-, -, h1, -⟩
  · rw [h1]; exact r3
  · exact .call r3 (.reinitialise h1)
  · rw [h1]; exact r3

/-- The values after `update` and `periodic`. -/
theorem settled {L2 L3 L4 : LevelSet D} {dt : D} {r : Bool} {n n' : Nat} (hr : Reachable w h L2) (e : L2.update dt = .ok (r, L3))
    (e' : periodic r n L3 = .ok (L4, n')) : ∃ φ, MotionOf L2 dt φ ∧ Settled w h L2 φ L4.signedDistance ∧ L4.gradient = L2.gradient ∧
      L4.velocity = L2.velocity := by
  have C := hr.core
  have hr3 : Reachable w h L3 := .call hr (.update _ _ e)
  generalize hq : (r, L3) = q at e
  have U := wp_of_ok (update_spec C dt) e
  cases U with
  | @no L1 M hn =>
    cases hq
    refine ⟨_, motion_of_moved C M, ?_⟩
    rcases periodic_ok e' with ⟨hc, -, -⟩ | ⟨-, -, h1, -⟩ | ⟨-, -, h1, -⟩
    · cases hc
    · obtain ⟨W, B, F, hF, -, hB⟩ := wp_of_ok (reinitialise_spec hr3.core.toWF hr3.core.small) h1
      refine ⟨.inr ⟨L3.mesh, F, (M.wf C.toWF).grid, fun i => M.node i, hF, by rw [hB.frame]⟩, ?_, ?_⟩
      · rw [hB.frame]; show L3.gradient = _; rw [M.frame]
      · rw [hB.frame]; show L3.velocity = _; rw [M.frame]
    · subst h1
      exact ⟨.inl rfl, by rw [M.frame], by rw [M.frame]⟩
  | @yes L1 L2' F M hn hF hB W B =>
    cases hq
    refine ⟨_, motion_of_moved C M, ?_⟩
    rcases periodic_ok e' with ⟨-, h1, -⟩ | ⟨hc, -⟩ | ⟨hc, -⟩
    · subst h1
      refine ⟨.inr ⟨L1.mesh, F, (M.wf C.toWF).grid, fun i => M.node i, hF, by rw [hB.frame]⟩, ?_, ?_⟩
      · rw [hB.frame]; show L1.gradient = _; rw [M.frame]
      · rw [hB.frame]; show L1.velocity = _; rw [M.frame]
    · cases hc
    · cases hc

theorem reachable_params {L : LevelSet D} (hr : Reachable w h L) : 2 < L.bandWidth ∧ FP.lt (FP.nat 0) L.moveLimit = true ∧ FP.lt L.moveLimit (FP.nat 1) = true := by
  induction hr with
  | @new L s moveLimit bandWidth f hw hh hN hb e =>
    norm_num at hN hb
    have hs : ∀ l, s = .points l → l ≠ [] := by
      rintro l rfl rfl; exact new_points_nil e
    obtain ⟨G, -, B⟩ := wp_of_ok (new_spec ⟨hw, hh, by norm_num; omega⟩ hN hb f hs) e
    obtain ⟨p1, p2, -⟩ := B.params
    rw [p1, p2]
    exact G
  | @newTarget L s t moveLimit bandWidth f hw hh hN hb e =>
    norm_num at hN hb
    have hs : ∀ l, s = .points l → l ≠ [] := by
      rintro l rfl rfl; exact newTarget_points_nil (.inl rfl) e
    have ht : ∀ l, t = .points l → l ≠ [] := by
      rintro l rfl rfl; exact newTarget_points_nil (.inr rfl) e
    obtain ⟨G, -, -, B⟩ := wp_of_ok (newTarget_spec hw hh hN hb f hs ht) e
    obtain ⟨p1, p2, -⟩ := B.params
    rw [p1, p2]
    exact G
  | call hr0 hc ih =>
    obtain ⟨p1, p2, -⟩ := (hc.evolves hr0.core).params
    rw [p1, p2]
    exact ih

end

section
variable {ρ : Type} {P : Problem ρ ℝ} {s s' : State ρ ℝ} {w h : Nat}

/-- The boundary of the state is the discretisation of its level set. -/
structure Fits (w h : Nat) (s : State ρ ℝ) (L L0 : LevelSet ℝ) (b0 : Boundary ℝ) : Prop where
  reach : Reachable w h L
  disc : Boundary.discretise L false = .ok (b0, L0)
  areas : AreasOnly L0 s.levelSet
  eq : s.boundary = { b0 with points := s.boundary.points }
  normals : List.Forall₂ NormalOnly b0.points s.boundary.points

theorem Fits.reachable {L L0 : LevelSet ℝ} {b0 : Boundary ℝ} (F : Fits w h s L L0 b0) : Reachable w h s.levelSet :=
  F.areas.reachable (C36_reachable F.reach (ready_of_reachable F.reach) F.disc)

theorem refresh_fits (hP : Regular P) (hr : Reachable w h s.levelSet) (e : refresh P s = .ok s') :
    ∃ L0 b0, Fits w h s' s.levelSet L0 b0 := by
  obtain ⟨b0, L0, h1, h2, -⟩ := refresh_ok e
  obtain ⟨f1, f2, f3⟩ := hP.finish _ _ _ _ h2
  exact ⟨L0, b0, hr, h1, f3, f1, f2⟩

theorem Running.start {L : LevelSet ℝ} {n : Nat} {g : ρ} (hr : Reachable w h L) (e : start P L n g = .ok s) : Running w h P s := by
  obtain ⟨L1, h1, h2⟩ := start_ok e
  exact .launch (.call hr (.reinitialise h1)) h2

theorem Running.fits (hP : Regular P) (hs : Running w h P s) : ∃ L L0 b0, Fits w h s L L0 b0 := by
  induction hs with
  | launch hr e => exact ⟨_, refresh_fits hP hr e⟩
  | reset _ hr e => exact ⟨_, refresh_fits hP hr e⟩
  | annotate _ hA ih =>
    obtain ⟨L, L0, b0, F⟩ := ih
    exact ⟨L, L0, b0, F.reach, F.disc, F.areas.trans hA, F.eq, F.normals⟩
  | step _ e ih =>
    obtain ⟨L, L0, b0, F⟩ := ih
    obtain ⟨t, h1, h2⟩ := step_ok e
    obtain ⟨b, ds, o, o', obj, pts, dt', g, L1, L2, r, L3, A⟩ := advance_ok h1
    exact ⟨_, refresh_fits hP (A.reachable hP F.reachable).2.2.2 h2⟩

theorem refresh_levelSet (hP : Regular P) (hr : Reachable w h s.levelSet) (e : refresh P s = .ok s') :
    s'.levelSet.signedDistance = s.levelSet.signedDistance ∧ s'.levelSet.gradient = s.levelSet.gradient ∧
    s'.levelSet.velocity = s.levelSet.velocity ∧ s'.levelSet.band = s.levelSet.band ∧ s'.runningTime = s.runningTime ∧
    s'.lambdas = s.lambdas ∧ s'.nReinit = s.nReinit := by
  obtain ⟨b0, L0, h1, h2, h3⟩ := refresh_ok e
  obtain ⟨-, -, A⟩ := hP.finish _ _ _ _ h2
  obtain ⟨_, _, -, -, -, -, -, -, -, -, -, -, -, h4⟩ := C36_node_status (ready_of_reachable hr) h1 (Nat.zero_le w) (Nat.zero_le h)
  refine ⟨?_, ?_, ?_, ?_, by rw [h3], by rw [h3], by rw [h3]⟩ <;> rw [A.eq, h4]
  rfl

/-- The points that the velocities are taken from, compared with the points of the state. -/
theorem Advanced.points (hP : Regular P) {L L0 : LevelSet ℝ} {b0 : Boundary ℝ} (F : Fits w h s L L0 b0) {nlopt : Optimise ℝ → NLoptRun ℝ}
    {fuel : Nat} {dt : ℝ} {b : Boundary ℝ} {o o' : Optimise ℝ} {obj : ℝ}
    {pts : List (BoundaryPoint ℝ)} {dt' : ℝ} {g : ρ} {L1 L2 : LevelSet ℝ} {r : Bool} {L3 : LevelSet ℝ}
    (A : Advanced P nlopt fuel dt s s' b ds o o' obj pts dt' g L1 L2 r L3) {i : Nat} {q : BoundaryPoint ℝ} (hq : pts[i]? = some q) :
    ∃ p0 ps p q', b0.points[i]? = some p0 ∧ s.boundary.points[i]? = some ps ∧ o.points[i]? = some p ∧ o'.points[i]? = some q' ∧
      NormalOnly p0 ps ∧ SensOnly ps p ∧ VelocityOnly p q' ∧ VelocityOnly q' q ∧ InDomain w h q.coord := by
  obtain ⟨q', h1, h2⟩ := forall₂_get' (hP.extend _ _ _ _ _ _ _ _ A.extend).1 hq
  obtain ⟨-, -, c3, c4⟩ := Optimise.C48_consistent (.made A.new) A.solve
  have hi : i < o.points.length := by rw [← c3]; exact (List.getElem?_eq_some_iff.1 h1).1
  obtain ⟨q'', d1, d2, -⟩ := c4 i o.points[i] (List.getElem?_eq_getElem hi)
  rw [h1] at d1
  cases d1
  have ho : o.points = b.points := by
    obtain ⟨-, -, h⟩ := Optimise.new_val A.new
    rw [h]; rfl
  have hp : b.points[i]? = some o.points[i] := by rw [← ho]; exact List.getElem?_eq_getElem hi
  obtain ⟨ps, e1, e2⟩ := forall₂_get' (hP.assign _ _ _ A.assign).2 hp
  obtain ⟨p0, e3, e4⟩ := forall₂_get' F.normals e1
  refine ⟨p0, ps, _, q', e3, e1, List.getElem?_eq_getElem hi, h1, e4, e2, d2, h2, ?_⟩
  have hc : q.coord = p0.coord := by rw [h2, d2, e2.1, e4]
  obtain ⟨-, i1, i2, i3, i4, -⟩ := C37_points_on_contour (ready_of_reachable F.reach) F.disc (List.mem_of_getElem? e3)
  rw [hc]
  exact ⟨i1, i2, i3, i4⟩

/-- The motion of the level set in one step. -/
structure Shift (w h : Nat) (L L' : LevelSet ℝ) (dt : ℝ) (φ : List ℝ) : Prop where
  length : φ.length = (w + 1) * (h + 1)
  outside : ∀ i, i ∉ L.band → vals φ i = vals L.signedDistance i
  capped : ∀ i ∈ L.band, L.OnDomainEdge i → 0 < vals L.signedDistance i - dt * vals L'.gradient i * vals L'.velocity i → vals φ i = 0
  moved : ∀ i ∈ L.band, ¬ (L.OnDomainEdge i ∧ 0 < vals L.signedDistance i - dt * vals L'.gradient i * vals L'.velocity i) →
    vals φ i = vals L.signedDistance i - dt * vals L'.gradient i * vals L'.velocity i
  settled : Settled w h L φ L'.signedDistance
  nonneg : ∀ i, i < L.mesh.nNodes → 0 ≤ vals L'.gradient i
  grads : ∃ L2, computeGradients { L with velocity := L'.velocity } = .ok L2 ∧ L'.gradient = L2.gradient

theorem Advanced.shift (hP : Regular P) {L L0 : LevelSet ℝ} {b0 : Boundary ℝ} (F : Fits w h s L L0 b0) {nlopt : Optimise ℝ → NLoptRun ℝ}
    {fuel : Nat} {dt : ℝ} {b : Boundary ℝ} {o o' : Optimise ℝ} {obj : ℝ}
    {pts : List (BoundaryPoint ℝ)} {dt' : ℝ} {g : ρ} {L1 L2 : LevelSet ℝ} {r : Bool} {L3 : LevelSet ℝ}
    (A : Advanced P nlopt fuel dt s s' b ds o o' obj pts dt' g L1 L2 r L3) (hw : 4 ≤ w) (hh : 4 ≤ h) :
    L1 = { s.levelSet with velocity := L1.velocity } ∧ s'.levelSet.velocity = L1.velocity ∧ ∃ φ, Shift w h s.levelSet s'.levelSet dt' φ := by
  have hr := F.reachable
  obtain ⟨r1, r2, r3, r4⟩ := A.reachable hP hr
  have hin : ∀ p ∈ pts, InDomain w h p.coord := by
    intro p hp
    obtain ⟨i, hi⟩ := List.mem_iff_getElem?.1 hp
    obtain ⟨p0, ps, p, q', -, -, -, -, -, -, -, -, h⟩ := A.points hP F hi
    exact h
  have k1 := C32_frame hr hin (hP.extend _ _ _ _ _ _ _ _ A.extend).2
  obtain ⟨L2', g1, g2, -⟩ := C34_safe r1 hw hh
  rw [A.grads] at g1
  cases g1
  obtain ⟨φ, M, S, hg, hv⟩ := settled r2 A.update A.periodic
  have hsd : L2.signedDistance = s.levelSet.signedDistance := by rw [g2, k1.1]
  have hb : L2.band = s.levelSet.band := by rw [g2, k1.1]; rfl
  have hm : L2.mesh = s.levelSet.mesh := by rw [g2, k1.1]
  have hvel : L2.velocity = L1.velocity := by rw [g2]
  have hedge : ∀ i, L2.OnDomainEdge i ↔ s.levelSet.OnDomainEdge i := by intro i; unfold OnDomainEdge; rw [hm]
  refine ⟨k1.1, by rw [hv, hvel], φ, ?_⟩
  constructor
  · rw [M.length, hm, hr.core.grid.nNodes]
  · intro i hi; rw [← hsd]; exact M.outside i (by rw [hb]; exact hi)
  · intro i hi he hlt
    have := M.capped i (by rw [hb]; exact hi) ((hedge i).2 he)
    simp only [FP.lt_real, FP.sub_real, FP.mul_real, FP.nat_real, Nat.cast_zero] at this
    exact this (by rw [hsd, ← hg, ← hv]; exact hlt)
  · intro i hi hn
    have := M.moved i (by rw [hb]; exact hi)
    simp only [FP.lt_real, FP.sub_real, FP.mul_real, FP.nat_real, Nat.cast_zero] at this
    rw [hsd, ← hg, ← hv, hedge] at this
    exact this hn
  · rcases S with S | ⟨m, F', s1, s2, s3, s4⟩
    · exact .inl S
    · exact .inr ⟨m, F', s1, by rw [← hm]; exact s2, s3, s4⟩
  · intro i hi
    rw [hg]
    exact C34_nonneg r1 hw hh A.grads (by rw [k1.1]; exact hi)
  · refine ⟨L2, ?_, hg⟩
    rw [hv, hvel, ← k1.1]
    exact A.grads

end

end Program

end Slsm
