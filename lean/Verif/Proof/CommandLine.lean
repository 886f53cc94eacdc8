import Verif.Spec.Demo

/-! The command line of `bimodal_brolly.cpp`. -/

namespace Slsm.Program

variable {D : Type} [FP D] {atof : String → D} {atoi : String → Nat}

theorem lastOf_cons {α : Type} (f : Item → Option α) (i : Item) (items : List Item) (d : α) :
    lastOf f (i :: items) d = lastOf f items ((f i).getD d) := by
  unfold lastOf
  rw [List.filterMap_cons]
  cases f i with
  | none => rfl
  | some a =>
    dsimp only [Option.getD_some]
    rw [List.getLast?_cons]
    rfl

/-- The options after one item. -/
def Item.apply (atof : String → D) (atoi : String → Nat) (o : Options D) : Item → Options D
  | .temperature v => { o with temperature := atof v }
  | .gravity v => { o with gravityMult := atof v }
  | .centre v => { o with centre := atof v }
  | .spring v => { o with spring := atof v }
  | .interval v => { o with umbrellaInterval := atof v }
  | .sampleInterval v => { o with sampleInterval := atoi v }
  | .samples v => { o with nSamples := atoi v }
  | .restart v => { o with restart := some v }
  | .boundary => { o with isBoundarySample := true }

theorem Configured.nil (o : Options D) : Configured atof atoi [] o o := ⟨rfl, rfl, rfl, rfl, rfl, rfl, rfl, rfl, rfl⟩

theorem Configured.cons {i : Item} {items : List Item} {o o' : Options D} (C : Configured atof atoi items (i.apply atof atoi o) o') :
    Configured atof atoi (i :: items) o o' := by
  obtain ⟨c1, c2, c3, c4, c5, c6, c7, c8, c9⟩ := C
  refine ⟨?_, ?_, ?_, ?_, ?_, ?_, ?_, ?_, ?_⟩ <;> rw [lastOf_cons]
  · rw [c1]; cases i <;> rfl
  · rw [c2]; cases i <;> rfl
  · rw [c3]; cases i <;> rfl
  · rw [c4]; cases i <;> rfl
  · rw [c5]; cases i <;> rfl
  · rw [c6]; cases i <;> rfl
  · rw [c7]; cases i <;> rfl
  · rw [c8]; cases i <;> rfl
  · rw [c9]; cases i <;> rfl

/-- Reading one item. -/
theorem parse_item {i : Item} {ws rest : List String} {n : Nat} {o : Options D} (hs : i.Spelled ws) (hf : i.fits) :
    parse atof atoi (n + 1) (ws ++ rest) o = parse atof atoi n rest (i.apply atof atoi o) := by
  rcases hs with ⟨hs, hne⟩ | ⟨v, rfl, rfl⟩
  · cases i <;> simp only [Item.documented, List.mem_cons, List.not_mem_nil, or_false] at hs
    case interval v =>
      rcases hs with rfl | rfl
      · rfl
      · exact absurd rfl (hne v)
    case restart v =>
      have hf : v.utf8ByteSize < 100 := hf
      rcases hs with rfl | rfl
      · simp [parse, operand, bind, Except.bind, hf, Item.apply]
      · simp [parse, operand, bind, Except.bind, hf, Item.apply]
    all_goals rcases hs with rfl | rfl <;> rfl
  · rfl

theorem Spelled.size {i : Item} {ws : List String} (hs : i.Spelled ws) : 1 ≤ ws.length := by
  rcases hs with ⟨hs, hne⟩ | ⟨v, rfl, rfl⟩
  · cases i <;> simp only [Item.documented, List.mem_cons, List.not_mem_nil, or_false] at hs <;> rcases hs with rfl | rfl <;> simp
  · simp

/-- Reading a list of items. -/
theorem parse_items {items : List Item} {lines : List (List String)} (hs : List.Forall₂ Item.Spelled items lines) (hf : ∀ i ∈ items, i.fits)
    (rest : List String) (n : Nat) (hn : (lines.flatten ++ rest).length ≤ n) (o : Options D) :
    ∃ m o', rest.length ≤ m ∧ Configured atof atoi items o o' ∧ parse atof atoi n (lines.flatten ++ rest) o = parse atof atoi m rest o' := by
  induction hs generalizing n o with
  | nil => exact ⟨n, o, by simpa using hn, .nil o, rfl⟩
  | @cons i ws items lines h1 h2 ih =>
    rw [List.flatten_cons, List.append_assoc] at hn ⊢
    have hsz := Spelled.size h1
    rw [List.length_append] at hn
    obtain ⟨n, rfl⟩ : ∃ k, n = k + 1 := ⟨n - 1, by omega⟩
    obtain ⟨m, o', c1, c2, c3⟩ := ih (fun j hj => hf j (List.mem_cons_of_mem _ hj)) n (by omega) (i.apply atof atoi o)
    exact ⟨m, o', c1, c2.cons, by rw [parse_item h1 (hf i List.mem_cons_self), c3]⟩

theorem parse_step (a : String) (t : List String) : (∃ (i : Item) (ws t' : List String), a :: t = ws ++ t' ∧ i.Spelled ws ∧ i.fits ∧ t'.length ≤ t.length) ∨
    ∀ (n : Nat) (o : Options D), Stops (a :: t) o (parse atof atoi (n + 1) (a :: t) o) := by
  by_cases ha : a ∈ takesValue
  · cases t with
    | nil =>
      refine .inr fun n o => .inr (.inr (.inl ⟨a, rfl, ha, ?_⟩))
      simp only [takesValue, List.mem_cons, List.not_mem_nil, or_false] at ha
      rcases ha with rfl | rfl | rfl | rfl | rfl | rfl | rfl | rfl | rfl | rfl | rfl | rfl | rfl | rfl | rfl | rfl <;> rfl
    | cons v t =>
      have doc : ∀ i : Item, [a, v] ∈ i.documented → (∀ v', [a, v] ≠ ["--umbrella-interval", v']) → i.fits →
          ∃ i ws t', a :: v :: t = ws ++ t' ∧ Item.Spelled i ws ∧ Item.fits i ∧ t'.length ≤ (v :: t).length :=
        fun i h1 h2 h3 => ⟨i, [a, v], t, rfl, .inl ⟨h1, h2⟩, h3, by simp⟩
      simp only [takesValue, List.mem_cons, List.not_mem_nil, or_false] at ha
      rcases ha with rfl | rfl | rfl | rfl | rfl | rfl | rfl | rfl | rfl | rfl | rfl | rfl | rfl | rfl | hr
      · exact .inl (doc (.temperature v) (by simp [Item.documented]) (by simp) trivial)
      · exact .inl (doc (.temperature v) (by simp [Item.documented]) (by simp) trivial)
      · exact .inl (doc (.gravity v) (by simp [Item.documented]) (by simp) trivial)
      · exact .inl (doc (.gravity v) (by simp [Item.documented]) (by simp) trivial)
      · exact .inl (doc (.centre v) (by simp [Item.documented]) (by simp) trivial)
      · exact .inl (doc (.centre v) (by simp [Item.documented]) (by simp) trivial)
      · exact .inl (doc (.spring v) (by simp [Item.documented]) (by simp) trivial)
      · exact .inl (doc (.spring v) (by simp [Item.documented]) (by simp) trivial)
      · exact .inl (doc (.interval v) (by simp [Item.documented]) (by simp) trivial)
      · exact .inl ⟨.interval v, ["--unmbrella-interval", v], t, rfl, .inr ⟨v, rfl, rfl⟩, trivial, by simp⟩
      · exact .inl (doc (.sampleInterval v) (by simp [Item.documented]) (by simp) trivial)
      · exact .inl (doc (.sampleInterval v) (by simp [Item.documented]) (by simp) trivial)
      · exact .inl (doc (.samples v) (by simp [Item.documented]) (by simp) trivial)
      · exact .inl (doc (.samples v) (by simp [Item.documented]) (by simp) trivial)
      · by_cases hv : v.utf8ByteSize < 100
        · rcases hr with rfl | rfl
          · exact .inl (doc (.restart v) (by simp [Item.documented]) (by simp) hv)
          · exact .inl (doc (.restart v) (by simp [Item.documented]) (by simp) hv)
        · refine .inr fun n o => .inr (.inr (.inr (.inl ⟨a, v, t, rfl, by simpa using hr, by omega, ?_⟩)))
          rcases hr with rfl | rfl
          · simp [parse, operand, bind, Except.bind, hv]
          · simp [parse, operand, bind, Except.bind, hv]
  · by_cases hb : a = "-b" ∨ a = "--boundary-sample"
    · refine .inl ⟨.boundary, [a], t, rfl, .inl ⟨?_, by simp⟩, trivial, le_rfl⟩
      rcases hb with rfl | rfl <;> simp [Item.documented]
    · by_cases hh : a = "-h" ∨ a = "--help"
      · refine .inr fun n o => .inr (.inl ⟨a, t, rfl, by simpa using hh, ?_⟩)
        rcases hh with rfl | rfl <;> rfl
      · refine .inr fun n o => .inr (.inr (.inr (.inr ⟨a, t, rfl, ?_, ?_⟩)))
        · simp only [List.mem_append, List.mem_cons, List.not_mem_nil, or_false]
          tauto
        · simp only [takesValue, List.mem_cons, List.not_mem_nil, or_false, not_or] at ha hb hh
          simp [parse, ha, hb, hh]

theorem parse_cases (k : Nat) : ∀ (args : List String), args.length ≤ k → ∀ (n : Nat) (o : Options D), args.length ≤ n →
    ∃ items lines rest o', List.Forall₂ Item.Spelled items lines ∧ (∀ i ∈ items, i.fits) ∧ args = lines.flatten ++ rest ∧
      Configured atof atoi items o o' ∧ Stops rest o' (parse atof atoi n args o) := by
  induction k with
  | zero =>
    intro args hk n o hn
    cases args with
    | nil => exact ⟨[], [], [], o, .nil, by simp, rfl, .nil o, .inl ⟨rfl, by cases n <;> rfl⟩⟩
    | cons a t => simp at hk
  | succ k ih =>
    intro args hk n o hn
    cases args with
    | nil => exact ⟨[], [], [], o, .nil, by simp, rfl, .nil o, .inl ⟨rfl, by cases n <;> rfl⟩⟩
    | cons a t =>
      rw [List.length_cons] at hk hn
      obtain ⟨n, rfl⟩ : ∃ m, n = m + 1 := ⟨n - 1, by omega⟩
      rcases parse_step (atof := atof) (atoi := atoi) a t with ⟨i, ws, t', e, hs, hf, hl⟩ | hstop
      · obtain ⟨items, lines, rest, o', h1, h2, h3, h4, h5⟩ := ih t' (by omega) n (i.apply atof atoi o) (by omega)
        refine ⟨i :: items, ws :: lines, rest, o', .cons hs h1, ?_, ?_, h4.cons, ?_⟩
        · intro j hj
          rcases List.mem_cons.1 hj with rfl | hj
          · exact hf
          · exact h2 j hj
        · rw [e, h3, List.flatten_cons, List.append_assoc]
        · rw [e, parse_item hs hf]
          exact h5
      · exact ⟨[], [], a :: t, o, .nil, by simp, rfl, .nil o, hstop n o⟩

end Slsm.Program
