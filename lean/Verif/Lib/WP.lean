import Verif.Model.Res

/-! Weakest-precondition lemmas for `Res`. -/

namespace Slsm

variable {α β σ : Type}

/-- `r` returns a value satisfying `Q`, or ends abnormally in a way allowed by `E`. -/
def wp (r : Res α) (Q : α → Prop) (E : Err → Prop) : Prop :=
  match r with
  | .ok a => Q a
  | .error e => E e

/-- No abnormal outcome is allowed. -/
abbrev noErr : Err → Prop := fun _ => False

/-- Only `exit(EXIT_FAILURE)` is allowed. -/
abbrev onlyExit : Err → Prop := fun e => e = Err.exit

@[simp] theorem wp_ok (a : α) (Q E) : wp (.ok a : Res α) Q E ↔ Q a := Iff.rfl
@[simp] theorem wp_pure (a : α) (Q E) : wp (pure a : Res α) Q E ↔ Q a := Iff.rfl
@[simp] theorem wp_error (e) (Q : α → Prop) (E) : wp (.error e : Res α) Q E ↔ E e := Iff.rfl

theorem wp_bind (r : Res α) (f : α → Res β) (Q E) :
    wp (r >>= f) Q E ↔ wp r (fun a => wp (f a) Q E) E := by
  cases r <;> rfl

theorem wp_mono {r : Res α} {Q Q' : α → Prop} {E E' : Err → Prop} (h : wp r Q E)
    (hQ : ∀ a, Q a → Q' a) (hE : ∀ e, E e → E' e) : wp r Q' E' := by
  cases r with
  | ok a => exact hQ a h
  | error e => exact hE e h

theorem wp_imp {r : Res α} {Q Q' : α → Prop} {E : Err → Prop} (h : wp r Q E)
    (hQ : ∀ a, Q a → Q' a) : wp r Q' E := wp_mono h hQ fun _ h => h

theorem wp_and {r : Res α} {Q Q' : α → Prop} {E E' : Err → Prop} (h : wp r Q E) (h' : wp r Q' E') :
    wp r (fun a => Q a ∧ Q' a) (fun e => E e ∧ E' e) := by
  cases r with
  | ok a => exact ⟨h, h'⟩
  | error e => exact ⟨h, h'⟩

theorem wp_noErr_iff {r : Res α} {Q : α → Prop} : wp r Q noErr ↔ ∃ a, r = .ok a ∧ Q a := by
  cases r <;> simp [wp, noErr]

theorem wp_iff {r : Res α} {Q : α → Prop} {E : Err → Prop} :
    wp r Q E ↔ (∃ a, r = .ok a ∧ Q a) ∨ ∃ e, r = .error e ∧ E e := by
  cases r <;> simp [wp]

theorem wp_of_eq_ok {r : Res α} {a : α} {Q : α → Prop} {E : Err → Prop} (h : r = .ok a) (hQ : Q a) : wp r Q E := by
  subst h; exact hQ

theorem wp_ite {c : Prop} [Decidable c] {r s : Res α} {Q : α → Prop} {E : Err → Prop}
    (h1 : c → wp r Q E) (h2 : ¬ c → wp s Q E) : wp (if c then r else s) Q E := by
  split
  · exact h1 ‹_›
  · exact h2 ‹_›

theorem rd_eq {v : List α} {i : Nat} (h : i < v.length) : rd v i = .ok v[i] := by
  simp [rd, h]

theorem rd_eq_ok {v : List α} {i : Nat} {a : α} : rd v i = .ok a ↔ v[i]? = some a := by
  unfold rd; split <;> simp_all

theorem rd_of_getElem? {v : List α} {i : Nat} {a : α} (h : v[i]? = some a) : rd v i = .ok a := rd_eq_ok.2 h

theorem rd_ub {v : List α} {i : Nat} (h : v.length ≤ i) : rd v i = .error .ub := by
  simp [rd, h]

theorem wr_eq {v : List α} {i : Nat} (a : α) (h : i < v.length) : wr v i a = .ok (v.set i a) := by
  simp [wr, h]

theorem wr_ub {v : List α} {i : Nat} (a : α) (h : v.length ≤ i) : wr v i a = .error .ub := by
  simp [wr, Nat.not_lt.2 h]

theorem wp_rd {v : List α} {i : Nat} {Q : α → Prop} {E} (h : i < v.length) (hQ : Q v[i]) : wp (rd v i) Q E := by
  rw [rd_eq h]; exact hQ

theorem wp_wr {v : List α} {i : Nat} {a : α} {Q : List α → Prop} {E} (h : i < v.length) (hQ : Q (v.set i a)) :
    wp (wr v i a) Q E := by
  rw [wr_eq a h]; exact hQ

theorem modAt_eq {v : List α} {i : Nat} {f : α → Res α} {b : α} (h : i < v.length) (hf : f v[i] = .ok b) :
    modAt v i f = .ok (v.set i b) := by
  simp only [modAt, rd_eq h, Except.bind, bind, hf, wr_eq b h]

theorem wp_modAt {v : List α} {i : Nat} {f : α → Res α} {Q : List α → Prop} {E} (h : i < v.length)
    (hQ : wp (f v[i]) (fun b => Q (v.set i b)) E) : wp (modAt v i f) Q E := by
  unfold modAt
  rw [wp_bind, rd_eq h, wp_ok, wp_bind]
  refine wp_imp hQ fun b hb => ?_
  rw [wr_eq b h]; exact hb

@[simp] theorem check_true : check true = .ok () := rfl
@[simp] theorem check_false : check false = .error .exit := rfl

theorem forN_zero (s : σ) (f) : forN 0 s f = .ok s := rfl
theorem forN_succ (n) (s : σ) (f) : forN (n + 1) s f = (forN n s f >>= f n) := rfl

/-- Invariant rule for counted loops. -/
theorem wp_forN {n : Nat} {s : σ} {f : Nat → σ → Res σ} {E : Err → Prop} (I : Nat → σ → Prop)
    (h0 : I 0 s) (hs : ∀ i, i < n → ∀ t, I i t → wp (f i t) (I (i + 1)) E) :
    wp (forN n s f) (I n) E := by
  induction n with
  | zero => exact h0
  | succ n ih =>
    rw [forN_succ, wp_bind]
    refine wp_imp (ih fun i hi => hs i (Nat.lt_succ_of_lt hi)) fun t ht => hs n (Nat.lt_succ_self n) t ht

/-- Exact-value rule for counted loops. -/
theorem forN_eq {n : Nat} {s : σ} {f : Nat → σ → Res σ} (g : Nat → σ)
    (h0 : g 0 = s) (hs : ∀ i, i < n → f i (g i) = .ok (g (i + 1))) :
    forN n s f = .ok (g n) := by
  induction n with
  | zero => rw [forN_zero, h0]
  | succ n ih =>
    rw [forN_succ, ih fun i hi => hs i (Nat.lt_succ_of_lt hi)]
    exact hs n (Nat.lt_succ_self n)

theorem forN_congr {n : Nat} {s : σ} {f f' : Nat → σ → Res σ} (h : ∀ i, i < n → ∀ t, f i t = f' i t) :
    forN n s f = forN n s f' := by
  induction n with
  | zero => rfl
  | succ n ih =>
    rw [forN_succ, forN_succ, ih fun i hi => h i (Nat.lt_succ_of_lt hi)]
    cases forN n s f' with
    | error e => rfl
    | ok a => exact h n (Nat.lt_succ_self n) a

/-- Invariant rule for bounded `while` loops: `m` decreases strictly and is below the bound. -/
theorem wp_whileN {n : Nat} {s : σ} {c : σ → Bool} {f : σ → Res σ} {E : Err → Prop}
    (I : σ → Prop) (m : σ → Nat)
    (h0 : I s) (hm : m s ≤ n)
    (hs : ∀ t, I t → c t = true → 0 < m t ∧ wp (f t) (fun t' => I t' ∧ m t' < m t) E) :
    wp (whileN n c f s) (fun t => I t ∧ c t = false) E := by
  induction n generalizing s with
  | zero =>
    unfold whileN
    by_cases hc : c s = true
    · have := (hs s h0 hc).1; omega
    · simp [hc, h0]
  | succ n ih =>
    unfold whileN
    by_cases hc : c s = true
    · rw [if_pos hc, wp_bind]
      refine wp_imp (hs s h0 hc).2 fun t ht => ih ht.1 (by have := ht.2; omega)
    · simp [hc, h0]

theorem wp_foldlM {l : List β} {s : σ} {f : σ → β → Res σ} {E : Err → Prop} (I : List β → σ → Prop)
    (h0 : I [] s)
    (hs : ∀ p b, p ++ [b] <+: l → ∀ t, I p t → wp (f t b) (I (p ++ [b])) E) :
    wp (l.foldlM f s) (I l) E := by
  have key : ∀ (q p : List β) (t : σ), p ++ q = l → I p t → wp (q.foldlM f t) (I l) E := by
    intro q
    induction q with
    | nil => intro p t hp hI; simp at hp; subst hp; simpa [List.foldlM] using hI
    | cons b q ih =>
      intro p t hp hI
      rw [List.foldlM_cons, wp_bind]
      refine wp_imp (hs p b ⟨q, by simpa using hp⟩ t hI) fun t' ht' => ih (p ++ [b]) t' (by simpa using hp) ht'
  exact key l [] s rfl h0

end Slsm
