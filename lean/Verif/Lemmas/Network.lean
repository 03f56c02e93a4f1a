import Verif.Spec.Network
/-!
# Invariants of the shared message buffer
-/

namespace SV2.Peer
variable {M : Type}

/-- The call that holds the mutex. -/
def Pc.current : Pc M → List (Call M)
  | .ready | .dead => []
  | .locked c | .loaded c _ | .stored c _ => [c]

/-- The vector as it was when the mutex was taken. -/
def Sys.base (s : Sys M) : List M :=
  match s.holder with
  | none => s.buf
  | some t => match (s.threads t).pc with
    | .stored _ v => v
    | _ => s.buf

structure Inv (programs : Nat → List (Call M)) (s : Sys M) : Prop where
  crit : ∀ t, (s.threads t).pc.current ≠ [] ↔ s.holder = some t
  cons : handedOut s.events ++ s.base = pushed s.events
  loaded : ∀ t c v, (s.threads t).pc = .loaded c v → v = s.buf ∧ c ≠ .crash
  stored : ∀ t c v, (s.threads t).pc = .stored c v → s.buf = c.leaves v ∧ c ≠ .crash
  order : ∀ t, callsOf t s.events ++ (s.threads t).pc.current ++ (s.threads t).todo = programs t
  poison : s.poisoned = true → s.holder = none

theorem pushed_append (a b : List (Event M)) : pushed (a ++ b) = pushed a ++ pushed b := by
  simp [pushed]

theorem handedOut_append (a b : List (Event M)) : handedOut (a ++ b) = handedOut a ++ handedOut b := by
  simp [handedOut]

theorem callsOf_append (t : Nat) (a b : List (Event M)) : callsOf t (a ++ b) = callsOf t a ++ callsOf t b := by
  simp [callsOf]

theorem callsOf_same (t : Nat) (c : Call M) (r : Option (List M)) : callsOf t [⟨t, c, r⟩] = [c] := by
  simp [callsOf]

theorem callsOf_other {t u : Nat} (h : u ≠ t) (c : Call M) (r : Option (List M)) : callsOf u [⟨t, c, r⟩] = [] := by
  simp [callsOf, Ne.symm h]

theorem Inv.start (programs : Nat → List (Call M)) : Inv programs (Sys.start programs) where
  crit t := by simp [Sys.start, Pc.current]
  cons := rfl
  loaded t c v h := by simp [Sys.start] at h
  stored t c v h := by simp [Sys.start] at h
  order t := by simp [Sys.start, callsOf, Pc.current]
  poison h := by simp [Sys.start] at h

theorem Inv.step {programs : Nat → List (Call M)} {s : Sys M} (h : Inv programs s) (t : Nat) :
    Inv programs (s.step t) := by
  have hot := h.order t
  have hct := h.crit t
  unfold Sys.step
  split
  · rename_i hpc
    split
    · exact h
    rename_i c rest htodo
    rw [hpc, htodo] at hot
    simp only [Pc.current, List.append_nil] at hot
    split
    case isFalse => exact h
    rename_i hnone
    have hnc : ∀ u, (s.threads u).pc.current = [] := by
      intro u
      have := h.crit u
      rw [hnone] at this
      simpa using this
    split
    · rename_i hp
      refine ⟨?_, ?_, ?_, ?_, ?_, ?_⟩
      · intro u
        simp only [Sys.set, hnone]
        split
        · simp [Pc.current]
        · simp [hnc]
      · have := h.cons
        simp only [Sys.base, hnone] at this
        simp only [Sys.base, Sys.set, hnone, handedOut_append, pushed_append]
        have e1 : handedOut [(⟨t, c, none⟩ : Event M)] = [] := by cases c <;> rfl
        have e2 : pushed [(⟨t, c, none⟩ : Event M)] = [] := by cases c <;> rfl
        rw [e1, e2, List.append_nil, List.append_nil, this]
      · intro u c' v hu
        simp only [Sys.set] at hu
        split at hu
        · cases hu
        · exact h.loaded u c' v hu
      · intro u c' v hu
        simp only [Sys.set] at hu
        split at hu
        · cases hu
        · exact h.stored u c' v hu
      · intro u
        simp only [Sys.set, callsOf_append]
        split
        · rename_i hu
          subst hu
          rw [callsOf_same]
          simpa [Pc.current] using hot
        · rename_i hu
          rw [callsOf_other hu, List.append_nil]
          exact h.order u
      · intro _
        exact hnone
    · rename_i hp
      refine ⟨?_, ?_, ?_, ?_, ?_, ?_⟩
      · intro u
        simp only [Sys.set]
        split
        · rename_i hu
          subst hu
          simp [Pc.current]
        · rename_i hu
          simp only [hnc, ne_eq, not_true, false_iff, Option.some.injEq]
          exact fun e => hu e.symm
      · have := h.cons
        simp only [Sys.base, hnone] at this
        simp only [Sys.base, Sys.set, if_true]
        exact this
      · intro u c' v hu
        simp only [Sys.set] at hu
        split at hu
        · cases hu
        · exact h.loaded u c' v hu
      · intro u c' v hu
        simp only [Sys.set] at hu
        split at hu
        · cases hu
        · exact h.stored u c' v hu
      · intro u
        simp only [Sys.set]
        split
        · rename_i hu
          subst hu
          simpa [Pc.current] using hot
        · exact h.order u
      · intro hp'
        exact absurd hp' hp
  · rename_i hpc
    rw [hpc] at hot hct
    have hh : s.holder = some t := hct.mp (by simp [Pc.current])
    have hnc : ∀ u, u ≠ t → (s.threads u).pc.current = [] := by
      intro u hu
      have := h.crit u
      rw [hh] at this
      simp only [ne_eq, Option.some.injEq] at this
      exact Classical.byContradiction fun hc => hu (this.mp hc).symm
    refine ⟨?_, ?_, ?_, ?_, ?_, ?_⟩
    · intro u
      simp only [Sys.set]
      split
      · simp [Pc.current]
      · rename_i hu
        simp [hnc u hu]
    · have := h.cons
      simp only [Sys.base, hh, hpc] at this
      simp only [Sys.base, Sys.set, handedOut_append, pushed_append]
      rw [show handedOut [(⟨t, .crash, none⟩ : Event M)] = [] from rfl,
        show pushed [(⟨t, .crash, none⟩ : Event M)] = [] from rfl, List.append_nil, List.append_nil, this]
    · intro u c' v hu
      simp only [Sys.set] at hu
      split at hu
      · cases hu
      · exact h.loaded u c' v hu
    · intro u c' v hu
      simp only [Sys.set] at hu
      split at hu
      · cases hu
      · exact h.stored u c' v hu
    · intro u
      simp only [Sys.set, callsOf_append]
      split
      · rename_i hu
        subst hu
        rw [callsOf_same]
        simpa [Pc.current] using hot
      · rename_i hu
        rw [callsOf_other hu, List.append_nil]
        exact h.order u
    · intro _
      rfl
  · rename_i c hc hpc
    rw [hpc] at hot hct
    have hh : s.holder = some t := hct.mp (by simp [Pc.current])
    refine ⟨?_, ?_, ?_, ?_, ?_, ?_⟩
    · intro u
      simp only [Sys.set]
      split
      · rename_i hu
        subst hu
        simp [Pc.current, hh]
      · exact h.crit u
    · have := h.cons
      simp only [Sys.base, hh, hpc] at this
      simp only [Sys.base, Sys.set, hh, if_true]
      exact this
    · intro u c' v hu
      simp only [Sys.set] at hu
      split at hu
      · cases hu
        exact ⟨rfl, fun e => hc (by rw [e])⟩
      · exact h.loaded u c' v hu
    · intro u c' v hu
      simp only [Sys.set] at hu
      split at hu
      · cases hu
      · exact h.stored u c' v hu
    · intro u
      simp only [Sys.set]
      split
      · rename_i hu
        subst hu
        exact hot
      · exact h.order u
    · exact h.poison
  · rename_i c v hpc
    rw [hpc] at hot hct
    have hh : s.holder = some t := hct.mp (by simp [Pc.current])
    have hl := h.loaded t c v hpc
    have hnc : ∀ u, u ≠ t → (s.threads u).pc.current = [] := by
      intro u hu
      have := h.crit u
      rw [hh] at this
      simp only [ne_eq, Option.some.injEq] at this
      exact Classical.byContradiction fun hc => hu (this.mp hc).symm
    refine ⟨?_, ?_, ?_, ?_, ?_, ?_⟩
    · intro u
      simp only [Sys.set]
      split
      · rename_i hu
        subst hu
        simp [Pc.current, hh]
      · exact h.crit u
    · have := h.cons
      simp only [Sys.base, hh, hpc] at this
      simp only [Sys.base, Sys.set, hh, if_true]
      rw [hl.1]
      exact this
    · intro u c' v' hu
      simp only [Sys.set] at hu
      split at hu
      · cases hu
      · rename_i hne
        have := hnc u hne
        rw [hu] at this
        cases this
    · intro u c' v' hu
      simp only [Sys.set] at hu
      split at hu
      · cases hu
        exact ⟨rfl, hl.2⟩
      · rename_i hne
        have := hnc u hne
        rw [hu] at this
        cases this
    · intro u
      simp only [Sys.set]
      split
      · rename_i hu
        subst hu
        exact hot
      · exact h.order u
    · exact h.poison
  · rename_i c v hpc
    rw [hpc] at hot hct
    have hh : s.holder = some t := hct.mp (by simp [Pc.current])
    have hs := h.stored t c v hpc
    have hnc : ∀ u, u ≠ t → (s.threads u).pc.current = [] := by
      intro u hu
      have := h.crit u
      rw [hh] at this
      simp only [ne_eq, Option.some.injEq] at this
      exact Classical.byContradiction fun hc => hu (this.mp hc).symm
    refine ⟨?_, ?_, ?_, ?_, ?_, ?_⟩
    · intro u
      simp only [Sys.set]
      split
      · simp [Pc.current]
      · rename_i hu
        simp [hnc u hu]
    · have := h.cons
      simp only [Sys.base, hh, hpc] at this
      simp only [Sys.base, Sys.set, handedOut_append, pushed_append, ← this, hs.1]
      cases c with
      | push m => simp [handedOut, pushed, Call.leaves]
      | drain => simp [handedOut, pushed, Call.leaves, Call.result]
      | crash => exact absurd rfl hs.2
    · intro u c' v hu
      simp only [Sys.set] at hu
      split at hu
      · cases hu
      · rename_i hne
        have := hnc u hne
        rw [hu] at this
        cases this
    · intro u c' v hu
      simp only [Sys.set] at hu
      split at hu
      · cases hu
      · rename_i hne
        have := hnc u hne
        rw [hu] at this
        cases this
    · intro u
      simp only [Sys.set, callsOf_append]
      split
      · rename_i hu
        subst hu
        rw [callsOf_same]
        simpa [Pc.current] using hot
      · rename_i hu
        rw [callsOf_other hu, List.append_nil]
        exact h.order u
    · intro _
      rfl
  · exact h

theorem Inv.run {programs : Nat → List (Call M)} {s : Sys M} (h : Inv programs s) (schedule : List Nat) :
    Inv programs (s.run schedule) := by
  induction schedule generalizing s with
  | nil => exact h
  | cons t schedule ih => exact ih (h.step t)

end SV2.Peer
