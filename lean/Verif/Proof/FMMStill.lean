import Verif.Proof.FMMInit

/-! A velocity extension with nothing to extend. -/

namespace Slsm

namespace FMM

section
variable {D : Type} [FP D] {w h : Nat} {m : Mesh D} {F : FMM D}

theorem trialNbr_still (G : IsGrid w h m) (L : Lens m F) {iv : Bool} (hiv : F.isVelocity = iv) {i j : Nat} (hi : i < m.nNodes)
    (hj : j < 4) (hn : ¬ adm m iv i) : trialNbr m i j F = .ok F := by
  unfold trialNbr
  rw [G.nbr_eq hi hj]
  simp only [bind, Except.bind]
  by_cases hb : nb m i j = m.nNodes
  · rw [if_neg (by simpa using hb)]; rfl
  · rw [if_pos hb]
    have hlt : nb m i j < F.status.length := by
      rw [L.s]; exact G.nb_lt hi hj hb
    rw [rd_eq hlt]
    dsimp only
    by_cases h1 : F.status[nb m i j] = .frozen
    · rw [if_pos h1]
      rw [rd_eq (by rw [L.s]; exact hi)]
      dsimp only
      split
      · obtain ⟨b, hb1, hb2⟩ := admissible_eq (F := F) G hiv hi
        rw [hb1]
        dsimp only
        rw [if_neg fun hc => hn (hb2.1 hc)]
        rfl
      · rfl
    · rw [if_neg h1]; rfl

theorem initialiseTrial_still (G : IsGrid w h m) (L : Lens m F) {iv : Bool} (hiv : F.isVelocity = iv)
    (hn : ∀ i, i < m.nNodes → F.st i = .none → ¬ adm m iv i) : initialiseTrial m F = .ok F := by
  unfold initialiseTrial
  refine forN_eq (fun _ => F) rfl fun i hi => ?_
  have hl : i < F.status.length := by rw [L.s]; exact hi
  rw [rd_eq hl]
  simp only [bind, Except.bind]
  by_cases hs : F.status[i] = .none
  · rw [if_pos hs]
    refine forN_eq (fun _ => F) rfl fun j hj => trialNbr_still G L hiv hi hj (hn i hi ?_)
    unfold FMM.st
    rw [List.getD_eq_getElem?_getD, List.getElem?_eq_getElem hl]
    exact hs
  · rw [if_neg hs]; rfl

theorem marchVelocity_still (G : IsGrid w h m) (sd vel : List D) (hsd : sd.length = m.nNodes) (hvel : vel.length = m.nNodes) (t : Bool)
    (hI : ∃ i, i < m.nNodes ∧ initSt m (fun i => sd.getD i (FP.nat 0)) i = .frozen)
    (hn : ∀ i, i < m.nNodes → (∃ nd, m.nodes[i]? = some nd ∧ nd.isActive = true) → initSt m (fun i => sd.getD i (FP.nat 0)) i = .frozen) :
    ∃ F', marchVelocity m sd vel (FMM.new m t) = .ok F' := by
  have I0 : Fresh m (fun i => sd.getD i (FP.nat 0)) (fun i => vel.getD i (FP.nat 0)) true t
      { FMM.new m t with sd := sd, vel := vel, isVelocity := true } :=
    ⟨⟨by simp [FMM.new], by simp [FMM.new], by simp [FMM.new], hsd, fun _ => hvel⟩, rfl, rfl,
    fun i _ => getD_replicate _ _ _, fun i _ => rfl, fun i _ => rfl⟩
  have key := initialiseFrozen_spec G I0
  unfold marchVelocity
  cases he : initialiseFrozen m { FMM.new m t with sd := sd, vel := vel, isVelocity := true } with
  | error e => rw [he, wp_error] at key; exact absurd hI key.2
  | ok F1 =>
    rw [he, wp_ok] at key
    have I1 := key.1
    simp only [bind, Except.bind]
    rw [he]
    dsimp only
    rw [initialiseHeap_eq I1.L]
    dsimp only
    rw [initialiseTrial_still (iv := true) (F := { F1 with heap := Heap.new (F1.status.count .none) F1.isTest }) G ⟨I1.L.s, I1.L.p, I1.L.c, I1.L.d, I1.L.v⟩ I1.iv]
    · dsimp only
      unfold solve
      cases F1.status.count .none with
      | zero => exact ⟨_, rfl⟩
      | succ n => exact ⟨_, rfl⟩
    · intro i hi hs ha
      have h1 : F1.st i = .none := hs
      rw [I1.st i hi] at h1
      rw [hn i hi (ha rfl)] at h1
      cases h1

end

end FMM

end Slsm
