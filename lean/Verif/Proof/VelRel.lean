import Verif.Lib.Both
import Mathlib.Data.List.Forall2
import Verif.Model.LevelSet

/-! # Two runs with different speeds

The march of the velocities, run on the same distances with related velocities, takes the same course and gives related velocities, for every relation
that is kept by the averages it forms.  Any arithmetic. -/

namespace Slsm

variable {D : Type} [FP D]

section
variable {α β : Type} {rel : α → β → Prop}

theorem Both.rd_all {l : List α} {l' : List β} (h : List.Forall₂ rel l l') (i : Nat) : Both rel (rd l i) (rd l' i) := by
  by_cases hi : i < l.length
  · rw [rd_eq hi, rd_eq (by rw [← h.length_eq]; exact hi)]
    exact h.get hi (by rw [← h.length_eq]; exact hi)
  · rw [rd_ub (by omega), rd_ub (by rw [← h.length_eq]; omega)]
    rfl

theorem forall₂_set {l : List α} {l' : List β} (h : List.Forall₂ rel l l') (i : Nat) {a : α} {b : β} (hab : rel a b) :
    List.Forall₂ rel (l.set i a) (l'.set i b) := by
  induction h generalizing i with
  | nil => exact .nil
  | cons h1 h2 ih =>
    cases i with
    | zero => exact .cons hab h2
    | succ i => exact .cons h1 (ih i)

theorem Both.wr_all {l : List α} {l' : List β} (h : List.Forall₂ rel l l') (i : Nat) {a : α} {b : β} (hab : rel a b) :
    Both (List.Forall₂ rel) (wr l i a) (wr l' i b) := by
  by_cases hi : i < l.length
  · rw [wr_eq _ hi, wr_eq _ (by rw [← h.length_eq]; exact hi)]
    exact forall₂_set h i hab
  · rw [wr_ub _ (by omega), wr_ub _ (by rw [← h.length_eq]; omega)]
    rfl

end

/-- What a relation between velocities has to allow for: zero, and the average that `finaliseVelocity` forms, with weights that are zero or absolute
values. -/
structure Mixes (rel : D → D → Prop) : Prop where
  zero : rel (FP.nat 0) (FP.nat 0)
  mix : ∀ d0 d1 v0 v1 v0' v1' : D, (d0 = FP.nat 0 ∨ ∃ x, d0 = FP.abs x) → (d1 = FP.nat 0 ∨ ∃ x, d1 = FP.abs x) → rel v0 v0' → rel v1 v1' →
    rel (((FP.nat 0 +. d0 *. v0) +. d1 *. v1) /. ((FP.nat 0 +. d0) +. d1)) (((FP.nat 0 +. d0 *. v0') +. d1 *. v1') /. ((FP.nat 0 +. d0) +. d1))

namespace FMM

variable {rel : D → D → Prop} {m : Mesh D}

/-- The objects differ in the velocities only, which are related. -/
def Like (rel : D → D → Prop) (F F' : FMM D) : Prop := ∃ v, F' = { F with vel := v } ∧ List.Forall₂ rel F.vel v

/-- The same beside other data. -/
def Like2 {ε : Type} (rel : D → D → Prop) (a b : FMM D × ε) : Prop := Like rel a.1 b.1 ∧ a.2 = b.2

theorem Like.mk {F : FMM D} {v : List D} (h : List.Forall₂ rel F.vel v) : Like rel F { F with vel := v } := ⟨v, rfl, h⟩

theorem like_frozenZero (i : Nat) {s s' : FMM D × Nat} (h : Like2 rel s s') : Both (Like2 rel) (frozenZero i s) (frozenZero i s') := by
  obtain ⟨F, n⟩ := s
  obtain ⟨F', n'⟩ := s'
  obtain ⟨⟨v, e, h⟩, h2⟩ := h
  dsimp only at e h2 h
  subst e h2
  refine Both.same (rd F.sd i) fun x _ => Both.same (wr F.copy i x) fun c _ => Both.same (rd F.status i) fun st _ => ?_
  refine Both.ite Iff.rfl (fun _ => Both.same (rd c i) fun y _ => Both.ite Iff.rfl (fun _ => Both.same (wr F.status i .frozen) fun z _ => ?_) fun _ => ?_) fun _ => ?_
  · exact ⟨⟨v, rfl, h⟩, rfl⟩
  · exact ⟨⟨v, rfl, h⟩, rfl⟩
  · exact ⟨⟨v, rfl, h⟩, rfl⟩

theorem like_frozenBorder (i : Nat) {s s' : FMM D × Nat} (h : Like2 rel s s') : Both (Like2 rel) (frozenBorder m i s) (frozenBorder m i s') := by
  obtain ⟨F, n⟩ := s
  obtain ⟨F', n'⟩ := s'
  obtain ⟨⟨v, e, h⟩, h2⟩ := h
  dsimp only at e h2 h
  subst e h2
  refine Both.same (rd F.status i) fun st _ => Both.ite Iff.rfl (fun _ => ?_) fun _ => ⟨⟨v, rfl, h⟩, rfl⟩
  refine Both.same (forN 4 (false, FP.nat 0, FP.nat 0) (crossing m F i)) fun q _ => ?_
  obtain ⟨isBorder, d0, d1⟩ := q
  refine Both.ite Iff.rfl (fun _ => Both.same (rd F.copy i) fun c _ => ?_) fun _ => ⟨⟨v, rfl, h⟩, rfl⟩
  refine Both.same (wr F.sd i _) fun sd _ => Both.same (wr F.status i .frozen) fun z _ => ?_
  exact ⟨⟨v, rfl, h⟩, rfl⟩

theorem like_initialiseFrozen {F F' : FMM D} (h : Like rel F F') : Both (Like rel) (initialiseFrozen m F) (initialiseFrozen m F') := by
  refine Both.bind (Both.forN (R := Like2 rel) ⟨h, rfl⟩ fun i _ a b hab => like_frozenZero i hab) fun a b _ hab => ?_
  refine Both.bind (Both.forN (R := Like2 rel) hab fun i _ a b hab => like_frozenBorder i hab) fun a b _ hab => ?_
  obtain ⟨h1, h2⟩ := hab
  rw [show b = (b.1, a.2) from by rw [h2]]
  exact Both.same (check (decide (0 < a.2))) fun _ _ => h1

theorem like_initialiseHeap {F F' : FMM D} (h : Like rel F F') : Both (Like rel) (initialiseHeap m F) (initialiseHeap m F') := by
  obtain ⟨v, rfl, h⟩ := h
  exact Both.same (forN m.nNodes 0 fun i n => rd F.status i >>= fun st => pure (if st = .none then n + 1 else n)) fun k _ => ⟨v, rfl, h⟩

theorem like_newTrial (i : Nat) {F F' : FMM D} (h : Like rel F F') : Both (Like rel) (newTrial m i F) (newTrial m i F') := by
  obtain ⟨v, rfl, h⟩ := h
  refine Both.same (wr F.status i .trial) fun st _ => Both.same (updateNode m { F with status := st } i) fun d _ => Both.same (wr F.sd i d) fun sd _ => ?_
  refine Both.same (rd sd i) fun x _ => Both.same (F.heap.push i (FP.abs x)) fun k _ => Both.same (wr F.heapPtr i k.1) fun hp _ => ?_
  exact ⟨v, rfl, h⟩

theorem like_makeTrial (i : Nat) (d : D) {F F' : FMM D} (h : Like rel F F') : Both (Like rel) (makeTrial i d F) (makeTrial i d F') := by
  obtain ⟨v, rfl, h⟩ := h
  refine Both.same (wr F.status i .trial) fun st _ => Both.same (F.heap.push i (FP.abs d)) fun k _ => Both.same (wr F.heapPtr i k.1) fun hp _ => ?_
  exact ⟨v, rfl, h⟩

theorem like_trialNbr (i j : Nat) {F F' : FMM D} (h : Like rel F F') : Both (Like rel) (trialNbr m i j F) (trialNbr m i j F') := by
  have h0 := h
  obtain ⟨v, rfl, h⟩ := h
  exact Both.same (nbr m i j) fun k _ => Both.ite Iff.rfl (fun _ => Both.same (rd F.status k) fun sn _ => Both.ite Iff.rfl (fun _ =>
    Both.same (rd F.status i) fun si _ => Both.ite Iff.rfl (fun _ => Both.same (admissible m F i) fun ok _ =>
      Both.ite Iff.rfl (fun _ => like_newTrial i h0) fun _ => h0) fun _ => h0) fun _ => h0) fun _ => h0

theorem like_initialiseTrial {F F' : FMM D} (h : Like rel F F') : Both (Like rel) (initialiseTrial m F) (initialiseTrial m F') := by
  refine Both.forN h fun i _ a b hab => ?_
  have h0 := hab
  obtain ⟨v, rfl, h⟩ := hab
  exact Both.same (rd a.status i) fun si _ => Both.ite Iff.rfl (fun _ => Both.forN h0 fun j _ a b hab => like_trialNbr i j hab) fun _ => h0

theorem like_visit (k : Nat) (st : FMMStatus) (d : D) {F F' : FMM D} (h : Like rel F F') : Both (Like rel) (visit m k st d F) (visit m k st d F') := by
  have h0 := h
  obtain ⟨v, rfl, h⟩ := h
  exact Both.ite Iff.rfl (fun _ => Both.same (rd F.heapPtr k) fun p _ => Both.same (F.heap.set p (FP.abs d)) fun hp _ => ⟨v, rfl, h⟩)
    fun _ => Both.ite Iff.rfl (fun _ => Both.same (admissible m F k) fun ok _ => Both.ite Iff.rfl (fun _ => like_makeTrial k d h0) fun _ => h0) fun _ => h0

theorem like_refresh (k : Nat) {F F' : FMM D} (h : Like rel F F') : Both (Like rel) (refresh m k F) (refresh m k F') := by
  obtain ⟨v, rfl, h⟩ := h
  exact Both.same (updateNode m F k) fun d _ => Both.same (wr F.sd k d) fun sd _ => Both.same (rd F.heapPtr k) fun p _ =>
    Both.same (F.heap.set p (FP.abs d)) fun hp _ => ⟨v, rfl, h⟩

theorem like_spreadNbr (addr j : Nat) {F F' : FMM D} (h : Like rel F F') : Both (Like rel) (spreadNbr m addr j F) (spreadNbr m addr j F') := by
  have h0 := h
  obtain ⟨v, rfl, h⟩ := h
  refine Both.same (nbr m addr j) fun k _ => Both.ite Iff.rfl (fun _ => Both.same (rd F.status k) fun st _ => Both.ite Iff.rfl (fun _ => ?_)
    fun _ => h0) fun _ => h0
  refine Both.same (updateNode m F k) fun d _ => Both.same (wr F.sd k d) fun sd _ =>
    Both.bind (like_visit (rel := rel) k st d (F := { F with sd := sd }) ⟨v, rfl, h⟩) fun G G' _ hG => ?_
  have hG0 := hG
  obtain ⟨v, rfl, h⟩ := hG
  exact Both.same (nbr m k j) fun l _ => Both.ite Iff.rfl (fun _ => Both.same (rd G.status l) fun st _ => Both.ite Iff.rfl (fun _ => like_refresh l hG0)
    fun _ => hG0) fun _ => hG0

/-- A weight of the average. -/
def IsWeight (d : D) : Prop := d = FP.nat 0 ∨ ∃ x, d = FP.abs x

/-- The same front and weights, related velocities. -/
def LikeS (rel : D → D → Prop) (a b : Bool × D × D × D) : Prop := b.1 = a.1 ∧ b.2.1 = a.2.1 ∧ b.2.2.1 = a.2.2.1 ∧ IsWeight a.2.2.1 ∧ rel a.2.2.2 b.2.2.2

theorem like_frontNbr (node i : Nat) {F F' : FMM D} (h : Like rel F F') {s s' : (Bool × D × D × D) × (Bool × D × D × D)}
    (h1 : LikeS rel s.1 s'.1) (h2 : LikeS rel s.2 s'.2) :
    Both (fun a b => LikeS rel a.1 b.1 ∧ LikeS rel a.2 b.2) (frontNbr m F node i s) (frontNbr m F' node i s') := by
  obtain ⟨v, rfl, h⟩ := h
  have hs : Both (fun a b => LikeS rel a.1 b.1 ∧ LikeS rel a.2 b.2) (pure s : Res _) (pure s') := ⟨h1, h2⟩
  obtain ⟨⟨b1, f1, d1, v1⟩, ⟨b2, f2, d2, v2⟩⟩ := s
  obtain ⟨⟨b1', f1', d1', v1'⟩, ⟨b2', f2', d2', v2'⟩⟩ := s'
  have g1 := h1
  have g2 := h2
  obtain ⟨e1, e2, e3, -, -⟩ := g1
  obtain ⟨e4, e5, e6, -, -⟩ := g2
  dsimp only at e1 e2 e3 e4 e5 e6
  subst e1 e2 e3 e4 e5 e6
  unfold frontNbr
  refine Both.same (nbr m node i) fun k _ => Both.ite Iff.rfl (fun _ => Both.same (rd F.status k) fun st _ => Both.ite Iff.rfl (fun _ =>
    Both.same (rd F.sd k) fun vn _ => ?_) fun _ => hs) fun _ => hs
  by_cases hi : i < 2
  · simp only [if_pos hi]
    refine Both.ite Iff.rfl (fun _ => Both.same (rd F.sd node) fun vi _ => Both.bind (Both.rd_all h k) fun x y _ hxy => ?_) fun _ => hs
    exact ⟨⟨rfl, rfl, rfl, .inr ⟨_, rfl⟩, hxy⟩, h2⟩
  · simp only [if_neg hi]
    refine Both.ite Iff.rfl (fun _ => Both.same (rd F.sd node) fun vi _ => Both.bind (Both.rd_all h k) fun x y _ hxy => ?_) fun _ => hs
    exact ⟨h1, ⟨rfl, rfl, rfl, .inr ⟨_, rfl⟩, hxy⟩⟩

theorem like_finaliseVelocity (hm : Mixes rel) (node : Nat) {F F' : FMM D} (h : Like rel F F') :
    Both (Like rel) (finaliseVelocity m node F) (finaliseVelocity m node F') := by
  have hz : LikeS rel (false, FP.nat 0, FP.nat 0, FP.nat 0) (false, FP.nat 0, FP.nat 0, FP.nat 0) := ⟨rfl, rfl, rfl, .inl rfl, hm.zero⟩
  refine Both.bind (Both.forN (R := fun a b => LikeS rel a.1 b.1 ∧ LikeS rel a.2 b.2) ⟨hz, hz⟩ fun i _ a b hab => like_frontNbr node i h hab.1 hab.2)
    fun s s' _ hs => ?_
  obtain ⟨⟨b1, f1, d1, v1⟩, ⟨b2, f2, d2, v2⟩⟩ := s
  obtain ⟨⟨b1', f1', d1', v1'⟩, ⟨b2', f2', d2', v2'⟩⟩ := s'
  obtain ⟨⟨e1, e2, e3, w1, r1⟩, ⟨e4, e5, e6, w2, r2⟩⟩ := hs
  dsimp only at e1 e2 e3 e4 e5 e6 w1 w2 r1 r2
  subst e1 e2 e3 e4 e5 e6
  obtain ⟨v, rfl, h⟩ := h
  refine Both.same (check _) fun _ _ => Both.bind (Both.wr_all h node (hm.mix d1' d2' v1 v2 v1' v2' w1 w2 r1 r2)) fun x y _ hxy => ?_
  exact ⟨y, rfl, hxy⟩

theorem like_finalise (hm : Mixes rel) (node : Nat) {F F' : FMM D} (h : Like rel F F') : Both (Like rel) (finalise m node F) (finalise m node F') := by
  have h0 := h
  obtain ⟨v, rfl, h⟩ := h
  exact Both.ite Iff.rfl (fun _ => like_finaliseVelocity hm node h0) fun _ => h0

theorem like_popFreeze (hm : Mixes rel) {s s' : FMM D × List Nat × Nat} (h : Like2 rel s s') :
    Both (fun a b => a.1 = b.1 ∧ Like2 rel a.2 b.2) (popFreeze m s) (popFreeze m s') := by
  obtain ⟨F, toFreeze, nFrozen⟩ := s
  obtain ⟨F', toFreeze', nFrozen'⟩ := s'
  obtain ⟨⟨v, e, h⟩, h2⟩ := h
  dsimp only at e h2 h
  cases h2
  subst e
  refine Both.same F.heap.pop fun q _ => ?_
  obtain ⟨addr, value, heap⟩ := q
  refine Both.same (wr F.status addr .frozen) fun status _ => ?_
  refine Both.bind (like_finalise (rel := rel) hm addr (F := { F with heap := heap, status := status }) ⟨v, rfl, h⟩) fun G G' _ hG => ?_
  exact Both.same (wr toFreeze nFrozen addr) fun l _ => ⟨rfl, hG, rfl⟩

theorem like_popEqual (hm : Mixes rel) (value : D) {s s' : FMM D × List Nat × Nat} (h : Like2 rel s s') :
    Both (Like2 rel) (popEqual m value s) (popEqual m value s') := by
  have hsz : s'.1.heap.size = s.1.heap.size := by
    obtain ⟨⟨v, e, -⟩, -⟩ := h
    rw [e]
  unfold popEqual
  rw [hsz]
  refine Both.bind (Both.whileN (R := fun a b : (FMM D × List Nat × Nat) × Bool => Like2 rel a.1 b.1 ∧ a.2 = b.2) (fun a b hab => by rw [hab.2])
    (fun a b hab _ => ?_) (s.1.heap.size + 1) (s, false) (s', false) ⟨h, rfl⟩) fun a b _ hab => hab.1
  obtain ⟨⟨h1, h2⟩, h3⟩ := hab
  have hp : peekEqual value b.1.1 = peekEqual value a.1.1 := by
    obtain ⟨v, e, -⟩ := h1
    rw [e]
    rfl
  rw [hp]
  refine Both.same (peekEqual value a.1.1) fun more _ => Both.ite Iff.rfl (fun _ => ?_) fun _ => ⟨⟨h1, h2⟩, rfl⟩
  exact Both.bind (like_popFreeze hm ⟨h1, h2⟩) fun c d _ hcd => ⟨hcd.2, rfl⟩

theorem like_solveStep (hm : Mixes rel) {s s' : FMM D × List Nat} (h : Like2 rel s s') : Both (Like2 rel) (solveStep m s) (solveStep m s') := by
  unfold solveStep
  refine Both.bind (like_popFreeze (s := (s.1, s.2, 0)) (s' := (s'.1, s'.2, 0)) hm ⟨h.1, by rw [h.2]⟩) fun a b _ hab => ?_
  obtain ⟨va, sa⟩ := a
  obtain ⟨vb, sb⟩ := b
  obtain ⟨h1, h2⟩ := hab
  dsimp only at h1 h2
  subst h1
  refine Both.bind (like_popEqual hm va h2) fun a b _ hab => ?_
  obtain ⟨Fa, ta, na⟩ := a
  obtain ⟨Fb, tb, nb⟩ := b
  obtain ⟨h1, h2⟩ := hab
  cases h2
  refine Both.bind (Both.forN (R := Like rel) h1 fun i _ a b hab => ?_) fun a b _ hab => ⟨hab, rfl⟩
  exact Both.same (rd ta i) fun addr _ => Both.forN hab fun j _ a b hab => like_spreadNbr addr j hab

theorem like_solve (hm : Mixes rel) {F F' : FMM D} (h : Like rel F F') : Both (Like rel) (solve m F) (solve m F') := by
  have hsz : F'.heap.maxLength = F.heap.maxLength := by
    obtain ⟨v, e, -⟩ := h
    rw [e]
  unfold solve
  rw [hsz]
  refine Both.bind (Both.whileN (R := Like2 rel) (fun a b hab => ?_) (fun a b hab _ => like_solveStep hm hab) F.heap.maxLength _ _ ⟨h, rfl⟩)
    fun a b _ hab => hab.1
  obtain ⟨⟨v, e, -⟩, -⟩ := hab
  rw [e]

/-- The march of related velocities on the same distances. -/
theorem like_marchVelocity (hm : Mixes rel) (sd : List D) {v v' : List D} (h : List.Forall₂ rel v v') (F : FMM D) :
    Both (Like rel) (marchVelocity m sd v F) (marchVelocity m sd v' F) := by
  refine Both.bind (like_initialiseFrozen (rel := rel) (m := m) (F := { F with sd := sd, vel := v, isVelocity := true })
    (F' := { F with sd := sd, vel := v', isVelocity := true }) ⟨v', rfl, h⟩) fun F1 F1' _ h1 => ?_
  refine Both.bind (like_initialiseHeap (m := m) h1) fun F2 F2' _ h2 => ?_
  refine Both.bind (like_initialiseTrial (m := m) h2) fun F3 F3' _ h3 => ?_
  refine Both.bind (like_solve (m := m) hm h3) fun F4 F4' _ h4 => ?_
  obtain ⟨v, rfl, h⟩ := h4
  exact ⟨v, rfl, h⟩

end FMM

end Slsm
