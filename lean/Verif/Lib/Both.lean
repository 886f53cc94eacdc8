import Verif.Lib.WP

/-! # Two computations side by side

`Both R r r'`: the two computations end with the same error, or both succeed with results related by `R`. -/

namespace Slsm

section
variable {α β γ δ : Type}

def Both (R : α → β → Prop) : Res α → Res β → Prop
  | .ok a, .ok b => R a b
  | .error e, .error e' => e = e'
  | _, _ => False

namespace Both

variable {R : α → β → Prop} {S : γ → δ → Prop}

theorem ok {a : α} {b : β} (h : R a b) : Both R (.ok a) (.ok b) := h

theorem error (e : Err) : Both R (.error e) (.error e) := rfl

theorem mono {R' : α → β → Prop} {r : Res α} {r' : Res β} (h : Both R r r') (hR : ∀ a b, r = .ok a → r' = .ok b → R a b → R' a b) : Both R' r r' := by
  cases r with
  | ok a =>
    cases r' with
    | ok b => exact hR a b rfl rfl h
    | error e => exact h.elim
  | error e =>
    cases r' with
    | ok b => exact h.elim
    | error e' => exact h

theorem bind {r : Res α} {r' : Res β} {f : α → Res γ} {f' : β → Res δ} (h : Both R r r') (hf : ∀ a b, r = .ok a → R a b → Both S (f a) (f' b)) :
    Both S (r >>= f) (r' >>= f') := by
  cases r with
  | ok a =>
    cases r' with
    | ok b => exact hf a b rfl h
    | error e => exact h.elim
  | error e =>
    cases r' with
    | ok b => exact h.elim
    | error e' => cases (show e = e' from h); rfl

/-- A step that is the same in both. -/
theorem same {ε : Type} (c : Res ε) {f : ε → Res γ} {f' : ε → Res δ} (hf : ∀ x, c = .ok x → Both S (f x) (f' x)) : Both S (c >>= f) (c >>= f') := by
  cases c with
  | ok x => exact hf x rfl
  | error e => rfl

theorem eq {r r' : Res α} (h : r = r') : Both (fun a b => a = b) r r' := by
  subst h
  cases r <;> rfl

theorem ite {c c' : Prop} [Decidable c] [Decidable c'] (hc : c ↔ c') {r s : Res α} {r' s' : Res β} (h1 : c → Both R r r') (h2 : ¬ c → Both R s s') :
    Both R (if c then r else s) (if c' then r' else s') := by
  by_cases h : c
  · rw [if_pos h, if_pos (hc.1 h)]; exact h1 h
  · rw [if_neg h, if_neg fun h' => h (hc.2 h')]; exact h2 h

theorem forN {n : Nat} {s : α} {s' : β} {f : Nat → α → Res α} {f' : Nat → β → Res β} (h0 : R s s')
    (h : ∀ i, i < n → ∀ a b, R a b → Both R (f i a) (f' i b)) : Both R (Slsm.forN n s f) (Slsm.forN n s' f') := by
  induction n with
  | zero => exact h0
  | succ n ih => exact bind (ih fun i hi => h i (by omega)) fun a b _ hab => h n (by omega) a b hab

/-- The relation may depend on the number of rounds done. -/
theorem forN' {n : Nat} {s : α} {s' : β} {f : Nat → α → Res α} {f' : Nat → β → Res β} (R : Nat → α → β → Prop) (h0 : R 0 s s')
    (h : ∀ i, i < n → ∀ a b, R i a b → Both (R (i + 1)) (f i a) (f' i b)) : Both (R n) (Slsm.forN n s f) (Slsm.forN n s' f') := by
  induction n with
  | zero => exact h0
  | succ n ih => exact bind (ih fun i hi => h i (by omega)) fun a b _ hab => h n (by omega) a b hab

theorem whileN {c : α → Bool} {c' : β → Bool} {f : α → Res α} {f' : β → Res β} (hc : ∀ a b, R a b → c a = c' b)
    (h : ∀ a b, R a b → c a = true → Both R (f a) (f' b)) (n : Nat) : ∀ s s', R s s' → Both R (Slsm.whileN n c f s) (Slsm.whileN n c' f' s') := by
  induction n with
  | zero =>
    intro s s' hs
    unfold Slsm.whileN
    exact ite (by rw [hc s s' hs]) (fun _ => rfl) fun _ => hs
  | succ n ih =>
    intro s s' hs
    unfold Slsm.whileN
    exact ite (by rw [hc s s' hs]) (fun h' => bind (h s s' hs h') fun a b _ hab => ih a b hab) fun _ => hs

theorem rd_map (g : α → β) (l : List α) (i : Nat) : Both (fun a b => b = g a ∧ l[i]? = some a) (Slsm.rd l i) (Slsm.rd (l.map g) i) := by
  by_cases h : i < l.length
  · rw [rd_of_getElem? (List.getElem?_eq_getElem h), rd_of_getElem? (a := g l[i]) (by simp [h])]
    exact ⟨rfl, List.getElem?_eq_getElem h⟩
  · rw [rd_ub (by simpa using h), rd_ub (by simpa using h)]
    rfl

theorem wr_map (g : α → β) (l : List α) (i : Nat) {a : α} {b : β} (hb : b = g a) :
    Both (fun x y => y = x.map g ∧ x = l.set i a ∧ i < l.length) (Slsm.wr l i a) (Slsm.wr (l.map g) i b) := by
  by_cases h : i < l.length
  · rw [wr_eq _ h, wr_eq _ (by simpa using h)]
    exact ⟨by rw [hb, List.map_set], rfl, h⟩
  · rw [wr_ub _ (by simpa using h), wr_ub _ (by simpa using h)]
    rfl

end Both

end

end Slsm
