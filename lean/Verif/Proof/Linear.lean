import Verif.Proof.LSVel
import Mathlib.LinearAlgebra.Prod
import Mathlib.LinearAlgebra.Pi

/-! # Computations that act linearly on the velocities

`Lin P put r`: either `r v` is the same error for all `v`, or `r v` consists of data `a` that do not depend on `v` (and satisfy `P`) and of data
that depend on `v` through a monotone linear map. -/

namespace Slsm

section
variable {V X Y α β γ δ : Type} [AddCommGroup V] [Module ℝ V] [Preorder V] [AddCommGroup X] [Module ℝ X] [Preorder X]
  [AddCommGroup Y] [Module ℝ Y] [Preorder Y]

def Lin (P : α → Prop) (put : α → X → β) (r : V → Res β) : Prop :=
  (∃ e, ∀ v, r v = .error e) ∨ ∃ a, P a ∧ ∃ M : V →ₗ[ℝ] X, Monotone M ∧ ∀ v, r v = .ok (put a (M v))

namespace Lin

variable {P : α → Prop} {put : α → X → β} {Q : γ → Prop} {put' : γ → Y → δ}

theorem error (e : Err) : Lin P put (fun _ : V => .error e) := .inl ⟨e, fun _ => rfl⟩

theorem mk (a : α) (ha : P a) (M : V →ₗ[ℝ] X) (hM : Monotone M) : Lin P put (fun v => .ok (put a (M v))) := .inr ⟨a, ha, M, hM, fun _ => rfl⟩

theorem leaf (a : α) (ha : P a) : Lin P put (fun x : X => .ok (put a x)) := mk a ha LinearMap.id monotone_id

theorem congr {r r' : V → Res β} (h : Lin P put r) (e : ∀ v, r' v = r v) : Lin P put r' := by
  rcases h with ⟨x, h⟩ | ⟨a, ha, M, hM, h⟩
  · exact .inl ⟨x, fun v => by rw [e, h]⟩
  · exact .inr ⟨a, ha, M, hM, fun v => by rw [e, h]⟩

theorem bind {r : V → Res β} {f : V → β → Res δ} (h : Lin P put r) (hf : ∀ a, P a → Lin Q put' (fun p : V × X => f p.1 (put a p.2))) :
    Lin Q put' (fun v => r v >>= f v) := by
  rcases h with ⟨e, h⟩ | ⟨a, ha, M, hM, h⟩
  · exact .inl ⟨e, fun v => by beta_reduce; rw [h]; rfl⟩
  · rcases hf a ha with ⟨e, h'⟩ | ⟨c, hc, N, hN, h'⟩
    · exact .inl ⟨e, fun v => by beta_reduce; rw [h]; exact h' (v, M v)⟩
    · refine .inr ⟨c, hc, N ∘ₗ (LinearMap.id.prod M), fun u v huv => hN ⟨huv, hM huv⟩, fun v => ?_⟩
      beta_reduce
      rw [h]
      exact h' (v, M v)

/-- The part of a linear computation that follows does not look at the argument. -/
theorem andThen {r : V → Res β} {f : β → Res δ} (h : Lin P put r) (hf : ∀ a, P a → Lin Q put' (fun x : X => f (put a x))) :
    Lin Q put' (fun v => r v >>= f) := by
  rcases h with ⟨e, h⟩ | ⟨a, ha, M, hM, h⟩
  · exact .inl ⟨e, fun v => by beta_reduce; rw [h]; rfl⟩
  · rcases hf a ha with ⟨e, h'⟩ | ⟨c, hc, N, hN, h'⟩
    · exact .inl ⟨e, fun v => by beta_reduce; rw [h]; exact h' (M v)⟩
    · refine .inr ⟨c, hc, N ∘ₗ M, hN.comp hM, fun v => ?_⟩
      beta_reduce
      rw [h]
      exact h' (M v)

theorem const {ε : Type} (c : Res ε) {f : ε → V → Res δ} (hf : ∀ x, c = .ok x → Lin Q put' (f x)) : Lin Q put' (fun v => c >>= fun x => f x v) := by
  rcases c with e | x
  · exact .inl ⟨e, fun _ => rfl⟩
  · exact hf x rfl

theorem ite {c : Prop} [Decidable c] {r s : V → Res β} (h1 : c → Lin P put r) (h2 : ¬ c → Lin P put s) :
    Lin P put (fun v => if c then r v else s v) := by
  by_cases hc : c
  · exact (h1 hc).congr fun v => if_pos hc
  · exact (h2 hc).congr fun v => if_neg hc

theorem forN {s : V → β} {f : V → Nat → β → Res β} {a : α} (ha : P a) {M : V →ₗ[ℝ] X} (hM : Monotone M) (hs : ∀ v, s v = put a (M v)) (n : Nat)
    (h : ∀ i, i < n → ∀ a, P a → Lin P put (fun p : V × X => f p.1 i (put a p.2))) : Lin P put (fun v => Slsm.forN n (s v) (f v)) := by
  induction n with
  | zero => exact (mk a ha M hM).congr fun v => by rw [← hs]; rfl
  | succ n ih =>
    refine (bind (f := fun v => f v n) (ih fun i hi => h i (by omega)) (h n (by omega))).congr fun v => rfl

/-- A loop whose body does not look at the argument. -/
theorem forN' {f : Nat → β → Res β} {a : α} (ha : P a) (n : Nat) (h : ∀ i, i < n → ∀ a, P a → Lin P put (fun x : X => f i (put a x))) :
    Lin P put (fun x : X => Slsm.forN n (put a x) f) := by
  induction n with
  | zero => exact leaf a ha
  | succ n ih => exact (andThen (ih fun i hi => h i (by omega)) (h n (by omega))).congr fun v => rfl

theorem whileN {c : β → Bool} {f : β → Res β} (hc : ∀ a x y, c (put a x) = c (put a y)) (h : ∀ a, P a → Lin P put (fun x : X => f (put a x))) (n : Nat) :
    ∀ a, P a → Lin P put (fun x : X => Slsm.whileN n c f (put a x)) := by
  induction n with
  | zero =>
    intro a ha
    refine (ite (c := c (put a 0) = true) (r := fun _ => .error .fuel) (s := fun x => .ok (put a x)) (fun _ => error _) fun _ => leaf a ha).congr fun v => ?_
    unfold Slsm.whileN
    rw [hc a v 0]
  | succ n ih =>
    intro a ha
    refine (ite (c := c (put a 0) = true) (r := fun x => f (put a x) >>= Slsm.whileN n c f) (s := fun x => .ok (put a x))
      (fun _ => andThen (h a ha) ih) fun _ => leaf a ha).congr fun v => ?_
    conv_lhs => unfold Slsm.whileN
    rw [hc a v 0]

end Lin

/-- Reading an entry of a vector of velocities. -/
theorem Lin.rd {n : Nat} {i : Nat} {Q : γ → Prop} {put' : γ → Y → δ} {M : V →ₗ[ℝ] (Fin n → ℝ)} {f : ℝ → V → Res δ}
    (hf : ∀ hi : i < n, Lin Q put' (fun v => f (M v ⟨i, hi⟩) v)) : Lin Q put' (fun v => Slsm.rd (List.ofFn (M v)) i >>= fun x => f x v) := by
  by_cases hi : i < n
  · refine (hf hi).congr fun v => ?_
    rw [rd_of_getElem? (a := M v ⟨i, hi⟩) (by simp [hi])]
    rfl
  · exact .inl ⟨.ub, fun v => by beta_reduce; rw [rd_ub (by simp; omega)]; rfl⟩

/-- Change of one entry. -/
def setAt {n : Nat} (i : Fin n) (M : V →ₗ[ℝ] (Fin n → ℝ)) (φ : V →ₗ[ℝ] ℝ) : V →ₗ[ℝ] (Fin n → ℝ) where
  toFun v := Function.update (M v) i (φ v)
  map_add' u v := by
    funext j
    by_cases h : j = i
    · subst h; simp
    · simp [h]
  map_smul' c v := by
    funext j
    by_cases h : j = i
    · subst h; simp
    · simp [h]

theorem setAt_mono {n : Nat} {i : Fin n} {M : V →ₗ[ℝ] (Fin n → ℝ)} {φ : V →ₗ[ℝ] ℝ} (hM : Monotone M) (hφ : Monotone φ) : Monotone (setAt i M φ) := by
  intro u v huv j
  change Function.update (M u) i (φ u) j ≤ Function.update (M v) i (φ v) j
  by_cases h : j = i
  · subst h; simpa using hφ huv
  · simpa [h] using hM huv j

/-- Writing an entry. -/
theorem Lin.wr {n : Nat} {i : Nat} {Q : γ → Prop} {put' : γ → Y → δ} {M : V →ₗ[ℝ] (Fin n → ℝ)} {φ : V →ₗ[ℝ] ℝ}
    {f : List ℝ → V → Res δ} (hf : ∀ hi : i < n, Lin Q put' (fun v => f (List.ofFn (setAt ⟨i, hi⟩ M φ v)) v)) :
    Lin Q put' (fun v => Slsm.wr (List.ofFn (M v)) i (φ v) >>= fun x => f x v) := by
  by_cases hi : i < n
  · refine (hf hi).congr fun v => ?_
    rw [wr_eq _ (by simpa using hi)]
    have : (List.ofFn (M v)).set i (φ v) = List.ofFn (setAt ⟨i, hi⟩ M φ v) := by
      refine List.ext_getElem (by simp) fun j h1 h2 => ?_
      simp only [List.getElem_set, List.getElem_ofFn]
      change _ = Function.update (M v) ⟨i, hi⟩ (φ v) ⟨j, _⟩
      by_cases h : i = j
      · subst h; simp
      · rw [if_neg h, Function.update_of_ne]
        intro h'
        exact h (Fin.mk.inj_iff.1 h').symm
    rw [this]
    rfl
  · exact .inl ⟨.ub, fun v => by beta_reduce; rw [wr_ub _ (by simp; omega)]; rfl⟩

end

namespace FMM

variable {n : Nat} {m : Mesh ℝ}

/-- The object with other velocities. -/
def put (F : FMM ℝ) (v : Fin n → ℝ) : FMM ℝ := { F with vel := List.ofFn v }

abbrev Any {α : Type} (_ : α) : Prop := True

/-- Linear in the velocities of the object. -/
abbrev LinF (r : (Fin n → ℝ) → Res (FMM ℝ)) : Prop := Lin (V := Fin n → ℝ) (X := Fin n → ℝ) Any put r

/-- The same beside a counter. -/
abbrev put2 (a : FMM ℝ × Nat) (v : Fin n → ℝ) : FMM ℝ × Nat := (put a.1 v, a.2)

abbrev LinF2 (r : (Fin n → ℝ) → Res (FMM ℝ × Nat)) : Prop := Lin (V := Fin n → ℝ) (X := Fin n → ℝ) Any put2 r

theorem lin_frozenZero (i : Nat) (s : FMM ℝ × Nat) : LinF2 (fun v : Fin n → ℝ => frozenZero i (put s.1 v, s.2)) := by
  refine Lin.const (rd s.1.sd i) fun x _ => Lin.const (wr s.1.copy i x) fun c _ => Lin.const (rd s.1.status i) fun st _ => ?_
  refine Lin.ite (fun _ => Lin.const (rd c i) fun y _ => Lin.ite (fun _ => Lin.const (wr s.1.status i .frozen) fun z _ => ?_) fun _ => ?_) fun _ => ?_
  · exact Lin.leaf (P := Any) (put := put2) ({ s.1 with copy := c, status := z }, s.2 + 1) trivial
  · exact Lin.leaf (P := Any) (put := put2) ({ s.1 with copy := c }, s.2) trivial
  · exact Lin.leaf (P := Any) (put := put2) ({ s.1 with copy := c }, s.2) trivial

theorem lin_frozenBorder (i : Nat) (s : FMM ℝ × Nat) :
    LinF2 (fun v : Fin n → ℝ => frozenBorder m i (put s.1 v, s.2)) := by
  refine Lin.const (rd s.1.status i) fun st _ => Lin.ite (fun _ => ?_) fun _ => Lin.leaf (P := Any) s trivial
  refine Lin.const (forN 4 (false, FP.nat 0, FP.nat 0) (crossing m s.1 i)) fun q _ => ?_
  obtain ⟨isBorder, d0, d1⟩ := q
  refine Lin.ite (fun _ => Lin.const (rd s.1.copy i) fun c _ => ?_) fun _ => Lin.leaf (P := Any) s trivial
  refine Lin.const (wr s.1.sd i _) fun sd _ => Lin.const (wr s.1.status i .frozen) fun z _ => ?_
  exact Lin.leaf (P := Any) (put := put2) ({ s.1 with sd := sd, status := z }, s.2 + 1) trivial

theorem lin_initialiseFrozen (F : FMM ℝ) : LinF (fun v : Fin n → ℝ => initialiseFrozen m (put F v)) := by
  refine Lin.andThen (Lin.forN' (put := put2) (P := Any) (a := (F, 0)) trivial m.nNodes
    fun i _ a _ => lin_frozenZero i a) fun a _ => ?_
  refine Lin.andThen (Lin.forN' (put := put2) (P := Any) (a := a) trivial m.nNodes
    fun i _ a _ => lin_frozenBorder i a) fun a _ => ?_
  exact Lin.const (check (decide (0 < a.2))) fun _ _ => Lin.leaf (P := Any) a.1 trivial

theorem lin_initialiseHeap (F : FMM ℝ) : LinF (fun v : Fin n → ℝ => initialiseHeap m (put F v)) :=
  Lin.const (forN m.nNodes 0 fun i n => rd F.status i >>= fun st => pure (if st = .none then n + 1 else n)) fun k _ =>
    Lin.leaf (P := Any) { F with heap := Heap.new k F.isTest } trivial

theorem put_updateNode (F : FMM ℝ) (v : Fin n → ℝ) (i : Nat) : updateNode m (put F v) i = updateNode m F i := rfl

theorem lin_newTrial (i : Nat) (F : FMM ℝ) : LinF (fun v : Fin n → ℝ => newTrial m i (put F v)) := by
  refine Lin.const (wr F.status i .trial) fun st _ => Lin.const (updateNode m { F with status := st } i) fun d _ => Lin.const (wr F.sd i d) fun sd _ => ?_
  refine Lin.const (rd sd i) fun x _ => Lin.const (F.heap.push i (FP.abs x)) fun k _ => Lin.const (wr F.heapPtr i k.1) fun hp _ => ?_
  exact Lin.leaf (P := Any) (put := put) { F with status := st, sd := sd, heap := k.2, heapPtr := hp } trivial

theorem lin_makeTrial (i : Nat) (d : ℝ) (F : FMM ℝ) : LinF (fun v : Fin n → ℝ => makeTrial i d (put F v)) := by
  refine Lin.const (wr F.status i .trial) fun st _ => Lin.const (F.heap.push i (FP.abs d)) fun k _ => Lin.const (wr F.heapPtr i k.1) fun hp _ => ?_
  exact Lin.leaf (P := Any) (put := put) { F with status := st, heap := k.2, heapPtr := hp } trivial

theorem lin_trialNbr (i j : Nat) (F : FMM ℝ) : LinF (fun v : Fin n → ℝ => trialNbr m i j (put F v)) := by
  refine Lin.const (nbr m i j) fun k _ => Lin.ite (fun _ => Lin.const (rd F.status k) fun sn _ => Lin.ite (fun _ => Lin.const (rd F.status i) fun si _ =>
    Lin.ite (fun _ => Lin.const (admissible m F i) fun ok _ => Lin.ite (fun _ => lin_newTrial i F) fun _ => Lin.leaf (P := Any) F trivial)
      fun _ => Lin.leaf (P := Any) F trivial) fun _ => Lin.leaf (P := Any) F trivial) fun _ => Lin.leaf (P := Any) F trivial

theorem lin_initialiseTrial (F : FMM ℝ) : LinF (fun v : Fin n → ℝ => initialiseTrial m (put F v)) :=
  Lin.forN' (P := Any) (put := put) trivial m.nNodes fun i _ F _ => Lin.const (rd F.status i) fun si _ =>
    Lin.ite (fun _ => Lin.forN' (P := Any) (put := put) trivial 4 fun j _ F _ => lin_trialNbr i j F) fun _ => Lin.leaf (P := Any) F trivial

theorem lin_visit (k : Nat) (st : FMMStatus) (d : ℝ) (F : FMM ℝ) : LinF (fun v : Fin n → ℝ => visit m k st d (put F v)) :=
  Lin.ite (fun _ => Lin.const (rd F.heapPtr k) fun p _ => Lin.const (F.heap.set p (FP.abs d)) fun hp _ => Lin.leaf (P := Any) { F with heap := hp } trivial)
    fun _ => Lin.ite (fun _ => Lin.const (admissible m F k) fun ok _ => Lin.ite (fun _ => lin_makeTrial k d F) fun _ => Lin.leaf (P := Any) F trivial)
      fun _ => Lin.leaf (P := Any) F trivial

theorem lin_refresh (k : Nat) (F : FMM ℝ) : LinF (fun v : Fin n → ℝ => refresh m k (put F v)) :=
  Lin.const (updateNode m F k) fun d _ => Lin.const (wr F.sd k d) fun sd _ => Lin.const (rd F.heapPtr k) fun p _ =>
    Lin.const (F.heap.set p (FP.abs d)) fun hp _ => Lin.leaf (P := Any) { F with sd := sd, heap := hp } trivial

theorem lin_spreadNbr (addr j : Nat) (F : FMM ℝ) : LinF (fun v : Fin n → ℝ => spreadNbr m addr j (put F v)) := by
  refine Lin.const (nbr m addr j) fun k _ => Lin.ite (fun _ => Lin.const (rd F.status k) fun st _ => Lin.ite (fun _ => ?_)
    fun _ => Lin.leaf (P := Any) F trivial) fun _ => Lin.leaf (P := Any) F trivial
  refine Lin.const (updateNode m F k) fun d _ => Lin.const (wr F.sd k d) fun sd _ => Lin.andThen (lin_visit k st d { F with sd := sd }) fun G _ => ?_
  exact Lin.const (nbr m k j) fun l _ => Lin.ite (fun _ => Lin.const (rd G.status l) fun st _ => Lin.ite (fun _ => lin_refresh l G)
    fun _ => Lin.leaf (P := Any) G trivial) fun _ => Lin.leaf (P := Any) G trivial

/-- State of the search for the frozen neighbours nearest to the front: everything but the velocities, and these. -/
def putS (a : (Bool × ℝ × ℝ) × (Bool × ℝ × ℝ)) (x : ℝ × ℝ) : (Bool × ℝ × ℝ × ℝ) × (Bool × ℝ × ℝ × ℝ) :=
  ((a.1.1, a.1.2.1, a.1.2.2, x.1), (a.2.1, a.2.2.1, a.2.2.2, x.2))

def Pos (a : (Bool × ℝ × ℝ) × (Bool × ℝ × ℝ)) : Prop := 0 ≤ a.1.2.2 ∧ 0 ≤ a.2.2.2

theorem lin_frontNbr (F : FMM ℝ) (node i : Nat) (a : (Bool × ℝ × ℝ) × (Bool × ℝ × ℝ)) (ha : Pos a) :
    Lin (V := (Fin n → ℝ) × (ℝ × ℝ)) (X := ℝ × ℝ) Pos putS (fun p => frontNbr m (put F p.1) node i (putS a p.2)) := by
  have hs : Lin (V := (Fin n → ℝ) × (ℝ × ℝ)) (X := ℝ × ℝ) Pos putS (fun p => pure (putS a p.2)) :=
    Lin.mk a ha (LinearMap.snd ℝ (Fin n → ℝ) (ℝ × ℝ)) (by intro u v h; exact h.2)
  by_cases hi : i < 2
  · refine Lin.congr (r := fun p => nbr m node i >>= fun k => if k ≠ m.nNodes then rd F.status k >>= fun st => if st = .frozen then
      rd F.sd k >>= fun vn => if (!a.1.1 || (FP.abs vn <. a.1.2.1)) = true then rd F.sd node >>= fun vi => rd (List.ofFn p.1) k >>= fun v =>
        pure ((true, FP.abs vn, FP.abs (vi -. vn), v), (putS a p.2).2) else pure (putS a p.2) else pure (putS a p.2) else pure (putS a p.2)) ?_ ?_
    · refine Lin.const (nbr m node i) fun k _ => Lin.ite (fun _ => Lin.const (rd F.status k) fun st _ => Lin.ite (fun _ =>
        Lin.const (rd F.sd k) fun vn _ => Lin.ite (fun _ => Lin.const (rd F.sd node) fun vi _ => ?_) fun _ => hs) fun _ => hs) fun _ => hs
      refine Lin.rd (M := LinearMap.fst ℝ (Fin n → ℝ) (ℝ × ℝ)) (f := fun v p => pure ((true, FP.abs vn, FP.abs (vi -. vn), v), (putS a p.2).2)) fun hk => ?_
      refine Lin.mk (a := ((true, FP.abs vn, FP.abs (vi -. vn)), a.2)) ⟨abs_nonneg _, ha.2⟩
        ((LinearMap.proj (⟨k, hk⟩ : Fin n) ∘ₗ LinearMap.fst ℝ (Fin n → ℝ) (ℝ × ℝ)).prod (LinearMap.snd ℝ ℝ ℝ ∘ₗ LinearMap.snd ℝ (Fin n → ℝ) (ℝ × ℝ))) ?_
      exact fun u v h => ⟨h.1 _, h.2.2⟩
    · intro p
      unfold frontNbr
      simp only [if_pos hi]
      rfl
  · refine Lin.congr (r := fun p => nbr m node i >>= fun k => if k ≠ m.nNodes then rd F.status k >>= fun st => if st = .frozen then
      rd F.sd k >>= fun vn => if (!a.2.1 || (FP.abs vn <. a.2.2.1)) = true then rd F.sd node >>= fun vi => rd (List.ofFn p.1) k >>= fun v =>
        pure ((putS a p.2).1, (true, FP.abs vn, FP.abs (vi -. vn), v)) else pure (putS a p.2) else pure (putS a p.2) else pure (putS a p.2)) ?_ ?_
    · refine Lin.const (nbr m node i) fun k _ => Lin.ite (fun _ => Lin.const (rd F.status k) fun st _ => Lin.ite (fun _ =>
        Lin.const (rd F.sd k) fun vn _ => Lin.ite (fun _ => Lin.const (rd F.sd node) fun vi _ => ?_) fun _ => hs) fun _ => hs) fun _ => hs
      refine Lin.rd (M := LinearMap.fst ℝ (Fin n → ℝ) (ℝ × ℝ)) (f := fun v p => pure ((putS a p.2).1, (true, FP.abs vn, FP.abs (vi -. vn), v))) fun hk => ?_
      refine Lin.mk (a := (a.1, (true, FP.abs vn, FP.abs (vi -. vn)))) ⟨ha.1, abs_nonneg _⟩
        ((LinearMap.fst ℝ ℝ ℝ ∘ₗ LinearMap.snd ℝ (Fin n → ℝ) (ℝ × ℝ)).prod (LinearMap.proj (⟨k, hk⟩ : Fin n) ∘ₗ LinearMap.fst ℝ (Fin n → ℝ) (ℝ × ℝ))) ?_
      exact fun u v h => ⟨h.2.1, h.1 _⟩
    · intro p
      unfold frontNbr
      simp only [if_neg hi]
      rfl

theorem lin_finaliseVelocity (node : Nat) (F : FMM ℝ) : LinF (fun v : Fin n → ℝ => finaliseVelocity m node (put F v)) := by
  have h0 : Lin (V := Fin n → ℝ) (X := ℝ × ℝ) Pos putS (fun v => forN 4 (putS ((false, FP.nat 0, FP.nat 0), (false, FP.nat 0, FP.nat 0)) (FP.nat 0, FP.nat 0)) (frontNbr m (put F v) node)) :=
    Lin.forN (f := fun v => frontNbr m (put F v) node) (a := ((false, FP.nat 0, FP.nat 0), (false, FP.nat 0, FP.nat 0)))
      (by constructor <;> simp [FP.nat_real]) (M := 0) (fun _ _ _ => le_refl _) (fun v => by simp [FP.nat_real]; rfl) 4 fun i _ a ha => lin_frontNbr F node i a ha
  refine Lin.congr (Lin.bind (Q := Any) (put' := put) (f := fun v s => check (!(((FP.nat 0 +. s.1.2.2.1) +. s.2.2.2.1) =. (FP.nat 0 : ℝ))) >>= fun _ =>
    wr (List.ofFn v) node (((FP.nat 0 +. s.1.2.2.1 *. s.1.2.2.2) +. s.2.2.2.1 *. s.2.2.2.2) /. ((FP.nat 0 +. s.1.2.2.1) +. s.2.2.2.1)) >>= fun vel =>
      pure { F with vel := vel }) h0 ?_) ?_
  · intro a ha
    refine Lin.const (Q := Any) (put' := put) (check (!(((FP.nat 0 +. a.1.2.2) +. a.2.2.2) =. (FP.nat 0 : ℝ)))) fun _ _ => ?_
    let q := a.1.2.2 + a.2.2.2
    have hq : 0 ≤ q := add_nonneg ha.1 ha.2
    let φ : (Fin n → ℝ) × (ℝ × ℝ) →ₗ[ℝ] ℝ :=
      (a.1.2.2 / q) • (LinearMap.fst ℝ ℝ ℝ ∘ₗ LinearMap.snd ℝ (Fin n → ℝ) (ℝ × ℝ)) + (a.2.2.2 / q) • (LinearMap.snd ℝ ℝ ℝ ∘ₗ LinearMap.snd ℝ (Fin n → ℝ) (ℝ × ℝ))
    have hφ : Monotone φ := fun u v h => add_le_add (mul_le_mul_of_nonneg_left h.2.1 (div_nonneg ha.1 hq)) (mul_le_mul_of_nonneg_left h.2.2 (div_nonneg ha.2 hq))
    refine Lin.congr (Lin.wr (i := node) (M := LinearMap.fst ℝ (Fin n → ℝ) (ℝ × ℝ)) (φ := φ) (f := fun vel _ => pure { F with vel := vel }) fun hi => ?_) ?_
    · exact Lin.mk F trivial (setAt ⟨node, hi⟩ (LinearMap.fst ℝ (Fin n → ℝ) (ℝ × ℝ)) φ) (setAt_mono (fun u v h => h.1) hφ)
    · intro p
      have : ((FP.nat 0 +. (putS a p.2).1.2.2.1 *. (putS a p.2).1.2.2.2) +. (putS a p.2).2.2.2.1 *. (putS a p.2).2.2.2.2) /.
          ((FP.nat 0 +. (putS a p.2).1.2.2.1) +. (putS a p.2).2.2.2.1) = φ p := by
        change ((0 : ℕ) + a.1.2.2 * p.2.1 + a.2.2.2 * p.2.2) / ((0 : ℕ) + a.1.2.2 + a.2.2.2) = a.1.2.2 / q * p.2.1 + a.2.2.2 / q * p.2.2
        simp only [q, Nat.cast_zero, zero_add]
        ring
      beta_reduce
      rw [this]
      rfl
  · intro v
    rfl

theorem lin_finalise (node : Nat) (F : FMM ℝ) : LinF (fun v : Fin n → ℝ => finalise m node (put F v)) :=
  Lin.ite (c := F.isVelocity = true) (fun _ => lin_finaliseVelocity node F) fun _ => Lin.leaf (P := Any) F trivial

/-- The same beside other data. -/
abbrev put3 {ε : Type} (a : FMM ℝ × ε) (v : Fin n → ℝ) : FMM ℝ × ε := (put a.1 v, a.2)

abbrev put4 (a : ℝ × FMM ℝ × List Nat × Nat) (v : Fin n → ℝ) : ℝ × FMM ℝ × List Nat × Nat := (a.1, put3 a.2 v)

abbrev put5 (a : (FMM ℝ × List Nat × Nat) × Bool) (v : Fin n → ℝ) : (FMM ℝ × List Nat × Nat) × Bool := (put3 a.1 v, a.2)

theorem lin_popFreeze (s : FMM ℝ × List Nat × Nat) :
    Lin (V := Fin n → ℝ) (X := Fin n → ℝ) Any put4 (fun v => popFreeze m (put3 s v)) := by
  obtain ⟨F, toFreeze, nFrozen⟩ := s
  refine Lin.const F.heap.pop fun q _ => ?_
  obtain ⟨addr, value, heap⟩ := q
  refine Lin.const (wr F.status addr .frozen) fun status _ => ?_
  refine Lin.andThen (lin_finalise (m := m) addr { F with heap := heap, status := status }) fun G _ => ?_
  exact Lin.const (wr toFreeze nFrozen addr) fun l _ => Lin.leaf (P := Any) (put := put4) (value, G, l, nFrozen + 1) trivial

theorem lin_popEqual (value : ℝ) (s : FMM ℝ × List Nat × Nat) :
    Lin (V := Fin n → ℝ) (X := Fin n → ℝ) Any put3 (fun v => popEqual m value (put3 s v)) := by
  refine Lin.andThen (P := Any) (put := put5) (Lin.whileN (P := Any) (put := put5) (fun _ _ _ => rfl) (fun a _ => ?_) (s.1.heap.size + 1) (s, false) trivial)
    fun a _ => Lin.leaf (P := Any) (put := put3) a.1 trivial
  refine Lin.const (peekEqual value a.1.1) fun more _ => Lin.ite (fun _ => ?_) fun _ => Lin.leaf (P := Any) (put := put5) (a.1, true) trivial
  exact Lin.andThen (lin_popFreeze (m := m) a.1) fun b _ => Lin.leaf (P := Any) (put := put5) (b.2, false) trivial

theorem lin_solveStep (s : FMM ℝ × List Nat) : Lin (V := Fin n → ℝ) (X := Fin n → ℝ) Any put3 (fun v => solveStep m (put3 s v)) := by
  refine Lin.andThen (lin_popFreeze (m := m) (s.1, s.2, 0)) fun a _ => ?_
  refine Lin.andThen (lin_popEqual (m := m) a.1 a.2) fun b _ => ?_
  refine Lin.andThen (Lin.forN' (P := Any) (put := put) (a := b.1) trivial b.2.2 fun i _ F _ => ?_) fun c _ => Lin.leaf (P := Any) (put := put3) (c, b.2.1) trivial
  exact Lin.const (rd b.2.1 i) fun addr _ => Lin.forN' (P := Any) (put := put) trivial 4 fun j _ F _ => lin_spreadNbr addr j F

theorem lin_solve (F : FMM ℝ) : LinF (fun v : Fin n → ℝ => solve m (put F v)) :=
  Lin.andThen (Lin.whileN (P := Any) (put := put3) (fun _ _ _ => rfl) (fun a _ => lin_solveStep (m := m) a) F.heap.maxLength (F, List.replicate m.nNodes 0) trivial)
    fun a _ => Lin.leaf (P := Any) (put := put) a.1 trivial

/-- The march of the velocities is linear and monotone in them. -/
theorem lin_marchVelocity (sd : List ℝ) (F : FMM ℝ) : LinF (fun v : Fin n → ℝ => marchVelocity m sd (List.ofFn v) F) := by
  refine Lin.andThen (lin_initialiseFrozen (m := m) { F with sd := sd, isVelocity := true }) fun F1 _ => ?_
  refine Lin.andThen (lin_initialiseHeap (m := m) F1) fun F2 _ => ?_
  refine Lin.andThen (lin_initialiseTrial (m := m) F2) fun F3 _ => ?_
  refine Lin.andThen (lin_solve (m := m) F3) fun F4 _ => ?_
  exact Lin.leaf (P := Any) (put := put) { F4 with sd := F4.copy } trivial

end FMM

end Slsm
