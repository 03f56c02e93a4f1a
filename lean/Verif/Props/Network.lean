import Verif.Lemmas.Network
import Verif.Props.NoiseSession
import Verif.Props.NoiseHandshake
import Verif.Props.NoiseTransport
/-!
# C52, C53, C54, C57: channel ids, pending messages, the connection encryptor
-/

namespace SV2
open Noise

/-! ## C52 -/

section
open Peer
variable {M : Type}

/-- For every number of threads, every program of every thread and every schedule: whenever nobody holds the mutex, what
was handed out, followed by what is pending, is exactly what was pushed, in order. -/
theorem C52_conservation (programs : Nat → List (Call M)) (schedule : List Nat) :
    let s := (Sys.start programs).run schedule
    (s.holder = none → handedOut s.events ++ s.buf = pushed s.events) ∧ handedOut s.events <+: pushed s.events := by
  intro s
  have h : Inv programs s := (Inv.start programs).run schedule
  refine ⟨?_, ⟨s.base, h.cons⟩⟩
  intro hn
  have := h.cons
  simp only [Sys.base, hn] at this
  exact this

/-- The calls of each thread take effect in its program order. -/
theorem C52_program_order (programs : Nat → List (Call M)) (schedule : List Nat) (t : Nat) :
    callsOf t ((Sys.start programs).run schedule).events <+: programs t := by
  have h : Inv programs _ := (Inv.start programs).run schedule
  exact ⟨_, by rw [← List.append_assoc]; exact h.order t⟩

/-- Only the holder of the mutex is between lock and unlock. -/
theorem C52_exclusive (programs : Nat → List (Call M)) (schedule : List Nat) (t u : Nat) :
    let s := (Sys.start programs).run schedule
    (s.threads t).pc ≠ .ready → (s.threads t).pc ≠ .dead → (s.threads u).pc ≠ .ready → (s.threads u).pc ≠ .dead →
      t = u := by
  intro s h1 h2 h3 h4
  have h : Inv programs s := (Inv.start programs).run schedule
  have e : ∀ v, (s.threads v).pc ≠ .ready → (s.threads v).pc ≠ .dead → s.holder = some v := by
    intro v a b
    apply (h.crit v).mp
    intro hc
    cases hp : (s.threads v).pc with
    | ready => exact a hp
    | dead => exact b hp
    | locked _ => rw [hp] at hc; cases hc
    | loaded _ _ => rw [hp] at hc; cases hc
    | stored _ _ => rw [hp] at hc; cases hc
  have := (e t h1 h2).symm.trans (e u h3 h4)
  exact Option.some.inj this

/-- How much a thread has left to do. -/
def Peer.Thread.work (th : Thread M) : Nat :=
  match th.pc with
  | .dead => 0
  | .ready => 4 * th.todo.length
  | .locked _ => 4 * th.todo.length + 3
  | .loaded _ _ => 4 * th.todo.length + 2
  | .stored _ _ => 4 * th.todo.length + 1

theorem Peer.step_other (s : Sys M) (t u : Nat) (h : u ≠ t) : (s.step t).threads u = s.threads u := by
  unfold Sys.step
  repeat' split
  all_goals simp [Sys.set, h]

/-- There is no deadlock: as long as some thread is not finished, some thread can make a step, and has less to do
after it. -/
theorem C52_progress (programs : Nat → List (Call M)) (schedule : List Nat) (t : Nat) :
    let s := (Sys.start programs).run schedule
    ¬ (s.threads t).Finished →
    ∃ u, ((s.step u).threads u).work < (s.threads u).work ∧ ∀ v, v ≠ u → (s.step u).threads v = s.threads v := by
  intro s hf
  have h : Inv programs s := (Inv.start programs).run schedule
  cases hh : s.holder with
  | some u =>
    refine ⟨u, ?_, fun v hv => Peer.step_other s u v hv⟩
    have hc := (h.crit u).mpr hh
    cases hp : (s.threads u).pc with
    | ready => rw [hp] at hc; exact absurd rfl hc
    | dead => rw [hp] at hc; exact absurd rfl hc
    | locked c =>
      cases c <;> simp [Sys.step, hp, Sys.set, Thread.work]
    | loaded c v => simp [Sys.step, hp, Sys.set, Thread.work]
    | stored c v => simp [Sys.step, hp, Sys.set, Thread.work]
  | none =>
    refine ⟨t, ?_, fun v hv => Peer.step_other s t v hv⟩
    have hc : (s.threads t).pc.current = [] := by
      have := h.crit t
      rw [hh] at this
      simpa using this
    cases hp : (s.threads t).pc with
    | dead => exact absurd (.inl hp) hf
    | locked c => rw [hp] at hc; cases hc
    | loaded c v => rw [hp] at hc; cases hc
    | stored c v => rw [hp] at hc; cases hc
    | ready =>
      cases ht : (s.threads t).todo with
      | nil => exact absurd (.inr ⟨hp, ht⟩) hf
      | cons c rest =>
        simp only [Sys.step, hp, ht, hh, if_true]
        split
        · simp [Sys.set, Thread.work, hp, ht]
        · simp [Sys.set, Thread.work, hp, ht]; omega

theorem Peer.run_append (s : Sys M) (a b : List Nat) : s.run (a ++ b) = (s.run a).run b := by
  simp [Sys.run]

/-- The work of the threads below `n`. -/
def Peer.Sys.total (s : Sys M) : Nat → Nat
  | 0 => 0
  | n + 1 => s.total n + (s.threads n).work

theorem Peer.total_le (s s' : Sys M) (n : Nat) (h : ∀ v, v < n → (s'.threads v).work ≤ (s.threads v).work) :
    s'.total n ≤ s.total n := by
  induction n with
  | zero => exact Nat.le_refl _
  | succ n ih =>
    have := ih fun v hv => h v (by omega)
    have := h n (by omega)
    simp only [Sys.total]
    omega

theorem Peer.total_lt (s s' : Sys M) (n u : Nat) (hu : u < n) (h : (s'.threads u).work < (s.threads u).work)
    (ho : ∀ v, v ≠ u → s'.threads v = s.threads v) : s'.total n < s.total n := by
  induction n with
  | zero => omega
  | succ n ih =>
    simp only [Sys.total]
    by_cases he : u = n
    · subst he
      have := Peer.total_le s s' u fun v hv => by rw [ho v (by omega)]; exact Nat.le_refl _
      omega
    · have := ih (by omega)
      rw [ho n (fun e => he e.symm)]
      omega

/-- From every reachable state with finitely many busy threads there is a schedule that finishes all of them. -/
theorem C52_can_finish (programs : Nat → List (Call M)) (n : Nat) (hn : ∀ t, n ≤ t → programs t = [])
    (schedule : List Nat) :
    ∃ more, ∀ t, (((Sys.start programs).run (schedule ++ more)).threads t).Finished := by
  generalize hm : ((Sys.start programs).run schedule).total n = m
  induction m using Nat.strongRecOn generalizing schedule with
  | ind m ih =>
    by_cases hf : ∀ t, (((Sys.start programs).run schedule).threads t).Finished
    · exact ⟨[], by rwa [List.append_nil]⟩
    obtain ⟨t, ht⟩ := Classical.not_forall.mp hf
    obtain ⟨u, hw, ho⟩ := C52_progress programs schedule t ht
    have h : Inv programs _ := (Inv.start programs).run schedule
    have hu : u < n := by
      apply Classical.byContradiction
      intro hge
      have := h.order u
      rw [hn u (by omega)] at this
      simp only [List.append_eq_nil_iff] at this
      have : (((Sys.start programs).run schedule).threads u).work = 0 := by
        cases hp : (((Sys.start programs).run schedule).threads u).pc with
        | ready => simp [Thread.work, hp, this.2]
        | dead => simp [Thread.work, hp]
        | locked c => rw [hp] at this; simp [Pc.current] at this
        | loaded c v => rw [hp] at this; simp [Pc.current] at this
        | stored c v => rw [hp] at this; simp [Pc.current] at this
      omega
    have hlt := Peer.total_lt _ _ n u hu hw ho
    have hstep : ((Sys.start programs).run schedule).step u = (Sys.start programs).run (schedule ++ [u]) := by
      rw [Peer.run_append]; rfl
    rw [hstep] at hlt
    obtain ⟨more, hmore⟩ := ih _ (by omega) (schedule ++ [u]) rfl
    exact ⟨u :: more, by simpa using hmore⟩

/-- A step changes nothing at all, or leaves its thread with less to do. -/
theorem Peer.step_or (s : Sys M) (t : Nat) :
    s.step t = s ∨ ((s.step t).threads t).work < (s.threads t).work := by
  cases hp : (s.threads t).pc with
  | dead => left; simp [Sys.step, hp]
  | locked c => right; cases c <;> simp [Sys.step, hp, Sys.set, Thread.work]
  | loaded c v => right; simp [Sys.step, hp, Sys.set, Thread.work]
  | stored c v => right; simp [Sys.step, hp, Sys.set, Thread.work]
  | ready =>
    cases ht : (s.threads t).todo with
    | nil => left; simp [Sys.step, hp, ht]
    | cons c rest =>
      by_cases hh : s.holder = none
      · right
        simp only [Sys.step, hp, ht, hh, if_true]
        split
        · simp [Sys.set, Thread.work, hp, ht]
        · simp [Sys.set, Thread.work, hp, ht]; omega
      · left; simp [Sys.step, hp, ht, hh]

theorem Peer.step_finished (s : Sys M) (t : Nat) (h : ∀ u, (s.threads u).Finished) : s.step t = s := by
  rcases h t with hp | ⟨hp, ht⟩
  · simp [Sys.step, hp]
  · simp [Sys.step, hp, ht]

/-- Every fair scheduler finishes all calls of finitely many busy threads: it is enough that each of them gets its turn
again and again, though at each turn it may find the mutex taken. -/
theorem C52_fair (programs : Nat → List (Call M)) (n : Nat) (hn : ∀ t, n ≤ t → programs t = [])
    (turn : Nat → Nat) (hfair : ∀ t, t < n → ∀ k, ∃ j, k ≤ j ∧ turn j = t) :
    ∃ k, ∀ j, k ≤ j → ∀ t, (((Sys.start programs).run ((List.range j).map turn)).threads t).Finished := by
  have hsucc : ∀ j, (Sys.start programs).run ((List.range (j + 1)).map turn) =
      ((Sys.start programs).run ((List.range j).map turn)).step (turn j) := by
    intro j
    rw [List.range_succ, List.map_append, Peer.run_append]
    rfl
  generalize hst : (fun j => (Sys.start programs).run ((List.range j).map turn)) = st at *
  have hat : ∀ j, (Sys.start programs).run ((List.range j).map turn) = st j := fun j => by rw [← hst]
  simp only [hat] at hsucc ⊢
  have hinv : ∀ j, Inv programs (st j) := fun j => by rw [← hat]; exact (Inv.start programs).run _
  -- a thread that can move is one of the first `n`
  have hlt : ∀ j u, (((st j).step u).threads u).work < ((st j).threads u).work → u < n := by
    intro j u hw
    apply Classical.byContradiction
    intro hge
    have := (hinv j).order u
    rw [hn u (by omega)] at this
    simp only [List.append_eq_nil_iff] at this
    have : ((st j).threads u).work = 0 := by
      cases hp : ((st j).threads u).pc with
      | ready => simp [Thread.work, hp, this.2]
      | dead => simp [Thread.work, hp]
      | locked c => rw [hp] at this; simp [Pc.current] at this
      | loaded c v => rw [hp] at this; simp [Pc.current] at this
      | stored c v => rw [hp] at this; simp [Pc.current] at this
    omega
  suffices key : ∀ m k, (st k).total n = m → ∃ k', ∀ t, ((st k').threads t).Finished by
    obtain ⟨k, hk⟩ := key _ 0 rfl
    refine ⟨k, fun j hj => ?_⟩
    have : st j = st k := by
      induction hj with
      | refl => rfl
      | step _ ih => rw [Nat.succ_eq_add_one, hsucc, ih, Peer.step_finished _ _ hk]
    rw [this]
    exact hk
  intro m
  induction m using Nat.strongRecOn with
  | ind m ih =>
    intro k hm
    by_cases hf : ∀ t, ((st k).threads t).Finished
    · exact ⟨k, hf⟩
    obtain ⟨t, ht⟩ := Classical.not_forall.mp hf
    obtain ⟨u, hw, -⟩ := C52_progress programs ((List.range k).map turn) t (by rw [hat]; exact ht)
    rw [hat] at hw
    obtain ⟨j, hj, hju⟩ := hfair u (hlt k u hw) k
    -- either something happens before `j`, or `u` moves then
    have hcase : ∀ i, k ≤ i → st i = st k ∨ ∃ i', (st i').total n < m := by
      intro i hi
      induction hi with
      | refl => exact .inl rfl
      | @step i _ ihi =>
        rcases ihi with he | hd
        · rcases Peer.step_or (st i) (turn i) with hs | hs
          · exact .inl (by rw [hsucc, hs, he])
          · refine .inr ⟨i + 1, ?_⟩
            rw [hsucc, ← hm, ← he]
            exact Peer.total_lt _ _ n _ (hlt i _ hs) hs fun v hv => Peer.step_other _ _ v hv
        · exact .inr hd
    rcases hcase j hj with he | ⟨i, hi⟩
    · refine ih ((st (j + 1)).total n) ?_ (j + 1) rfl
      rw [hsucc, he, hju, ← hm]
      exact Peer.total_lt _ _ n u (hlt k u hw) hw fun v hv => Peer.step_other _ _ v hv
    · exact ih _ hi i rfl

/-- When no handler crashes, no call panics. -/
theorem C52_no_panic (programs : Nat → List (Call M)) (hc : ∀ t, Call.crash ∉ programs t) (schedule : List Nat) :
    let s := (Sys.start programs).run schedule
    ∀ e ∈ s.events, e.returned ≠ none := by
  have gen : ∀ (schedule : List Nat) (s : Sys M), Inv programs s → s.poisoned = false →
      (∀ e ∈ s.events, e.returned ≠ none) → ∀ e ∈ (s.run schedule).events, e.returned ≠ none := by
    intro schedule
    induction schedule with
    | nil => exact fun s _ _ h => h
    | cons t schedule ih =>
      intro s hi hp he
      have key : (s.step t).poisoned = false ∧ ∀ e ∈ (s.step t).events, e.returned ≠ none := by
        unfold Sys.step
        split
        · split
          · exact ⟨hp, he⟩
          · split
            · rw [hp]; exact ⟨hp, he⟩
            · exact ⟨hp, he⟩
        · rename_i hpc
          have := hi.order t
          rw [hpc] at this
          exfalso
          apply hc t
          rw [← this]
          simp [Pc.current]
        · exact ⟨hp, he⟩
        · exact ⟨hp, he⟩
        · refine ⟨hp, ?_⟩
          intro e h
          simp only [List.mem_append, List.mem_singleton] at h
          rcases h with h | rfl
          · exact he e h
          · simp
        · exact ⟨hp, he⟩
      exact ih _ (hi.step t) key.1 key.2
  exact gen schedule _ (Inv.start programs) rfl (by simp [Sys.start])

/-- When all threads are finished and no handler crashes, every message of every program was pushed, and none is lost. -/
theorem C52_complete (programs : Nat → List (Call M)) (hc : ∀ t, Call.crash ∉ programs t) (schedule : List Nat) :
    let s := (Sys.start programs).run schedule
    (∀ t, (s.threads t).pc = .ready ∧ (s.threads t).todo = []) →
    (∀ t, callsOf t s.events = programs t) ∧ (∀ e ∈ s.events, e.returned ≠ none) ∧
      handedOut s.events ++ s.buf = pushed s.events := by
  intro s hf
  have h : Inv programs s := (Inv.start programs).run schedule
  refine ⟨?_, C52_no_panic programs hc schedule, (C52_conservation programs schedule).1 ?_⟩
  · intro t
    have := h.order t
    rw [(hf t).1, (hf t).2] at this
    simpa [Pc.current] using this
  · cases hh : s.holder with
    | none => rfl
    | some t =>
      have := (h.crit t).mpr hh
      rw [(hf t).1] at this
      exact absurd rfl this

/-- After a handler has panicked while it held the mutex, every call panics: the pending messages are never handed
out. -/
theorem C52_poisoned (programs : Nat → List (Call M)) (schedule more : List Nat) :
    let s := (Sys.start programs).run schedule
    (∃ t, (⟨t, .crash, none⟩ : Event M) ∈ s.events) →
    ∃ new, (s.run more).events = s.events ++ new ∧ (∀ e ∈ new, e.returned = none) ∧ (s.run more).buf = s.buf := by
  have pois : ∀ (schedule : List Nat) (s : Sys M), ((∃ t, (⟨t, .crash, none⟩ : Event M) ∈ s.events) → s.poisoned = true) →
      ((∃ t, (⟨t, .crash, none⟩ : Event M) ∈ (s.run schedule).events) → (s.run schedule).poisoned = true) := by
    intro schedule
    induction schedule with
    | nil => exact fun s h => h
    | cons t schedule ih =>
      intro s hs
      refine ih (s.step t) ?_
      unfold Sys.step
      split
      · split
        · exact hs
        · split
          · split
            · rename_i hp
              intro _
              exact hp
            · exact hs
          · exact hs
      · intro _; rfl
      · exact hs
      · exact hs
      · rintro ⟨u, hu⟩
        simp only [List.mem_append, List.mem_singleton] at hu
        rcases hu with hu | hu
        · exact hs ⟨u, hu⟩
        · cases hu
      · exact hs
  intro s hex
  have hp : s.poisoned = true := pois schedule _ (by simp [Sys.start]) hex
  have hi : Inv programs s := (Inv.start programs).run schedule
  clear_value s
  clear hex pois
  induction more generalizing s with
  | nil => exact ⟨[], by simp [Sys.run]⟩
  | cons t more ih =>
    have hn := hi.poison hp
    have hcur : (s.threads t).pc.current = [] := by
      have := hi.crit t
      rw [hn] at this
      simpa using this
    have key : (s.step t).poisoned = true ∧ (s.step t).buf = s.buf ∧
        ∃ new, (s.step t).events = s.events ++ new ∧ ∀ e ∈ new, e.returned = none := by
      unfold Sys.step
      split
      · split
        · exact ⟨hp, rfl, [], by simp⟩
        · rw [if_pos hn, if_pos hp]
          exact ⟨hp, rfl, _, rfl, by simp⟩
      · rename_i h; rw [h] at hcur; cases hcur
      · rename_i h; rw [h] at hcur; cases hcur
      · rename_i h; rw [h] at hcur; cases hcur
      · rename_i h; rw [h] at hcur; cases hcur
      · exact ⟨hp, rfl, [], by simp⟩
    obtain ⟨k1, k2, new1, k3, k4⟩ := key
    obtain ⟨new2, e1, e2, e3⟩ := ih (s.step t) k1 (hi.step t)
    refine ⟨new1 ++ new2, ?_, ?_, ?_⟩
    · show ((s.step t).run more).events = _
      rw [e1, k3, List.append_assoc]
    · intro e he
      rcases List.mem_append.mp he with he | he
      · exact k4 e he
      · exact e2 e he
    · show ((s.step t).run more).buf = _
      rw [e3, k2]

/-- Two producers and a consumer, interleaved so that one has to wait. -/
def samplePrograms : Nat → List (Call Nat)
  | 0 => [.push 1, .push 2]
  | 1 => [.push 3]
  | 2 => [.drain, .drain]
  | _ => []

def sampleSchedule : List Nat := [0, 0, 1, 2, 0, 0, 1, 1, 2, 1, 1, 2, 2, 2, 2, 0, 0, 0, 0, 2, 2, 2, 2]

example : let s := (Sys.start samplePrograms).run sampleSchedule
    s.events.map (·.returned) = [some [], some [], some [1, 3], some [], some [2]] ∧ pushed s.events = [1, 3, 2] ∧
    s.buf = [] := by decide

/-- Taking turns is fair. -/
example : ∀ t, t < 3 → ∀ k, ∃ j, k ≤ j ∧ (fun i => i % 3) j = t := fun t ht k => ⟨3 * k + t, by omega, by show _ % 3 = _; omega⟩

end

/-! ## C53 -/

/-- `new_channel_id` is never `u32::MAX`, and every other value is possible. -/
theorem C53_range (id : UInt32) : (∃ draw, newChannelId draw = id) ↔ id ≠ 0xFFFFFFFF := by
  constructor
  · rintro ⟨draw, rfl⟩ h
    have := congrArg UInt32.toNat h
    have hd := draw.isLt
    simp only [UInt32.size] at hd
    simp only [newChannelId, UInt32.toNat_ofNat'] at this
    rw [Nat.mod_eq_of_lt (by omega)] at this
    simp at this
    omega
  · intro h
    have hlt : id.toNat < UInt32.size - 1 := by
      have := id.toNat_lt
      have hne : id.toNat ≠ 4294967295 := fun e => h (UInt32.toNat_inj.mp (by simpa using e))
      simp only [UInt32.size]
      omega
    exact ⟨⟨id.toNat, hlt⟩, by simp [newChannelId]⟩

/-- Different draws give different ids. -/
theorem C53_injective (a b : Fin (UInt32.size - 1)) (h : newChannelId a = newChannelId b) : a = b := by
  have := congrArg UInt32.toNat h
  have ha := a.isLt
  have hb := b.isLt
  simp only [UInt32.size] at ha hb
  simp only [newChannelId, UInt32.toNat_ofNat'] at this
  rw [Nat.mod_eq_of_lt (by omega), Nat.mod_eq_of_lt (by omega)] at this
  exact Fin.ext this

/-- Nothing makes the ids of two channels different: after any ids have been given out, the next one can be one of
them. -/
theorem C53_not_unique (earlier : List (Fin (UInt32.size - 1))) (h : earlier ≠ []) :
    ∃ draw, newChannelId draw ∈ earlier.map newChannelId := by
  cases earlier with
  | nil => exact absurd rfl h
  | cons d _ => exact ⟨d, by simp⟩

/-! ## C54 -/

section
variable (P : Prims)

/-- The same for any buffer of 1024 bytes in `init_handshake`. -/
theorem handshake_aux (hA : AeadCorrect P) (hD : DhLaws P) (sI eI eR sR : Arr 32) (rnd : Keypair)
    (buf : Bytes) (hbuf : buf.length = 1024) (x : NX.Run) (p2 : Bytes) (hx : x = ⟨[], eI, eR, sR, buf.drop 32, p2⟩)
    (hp2 : p2 = plain ((x.wire1 P).drop 80)) (hk : x.KeysNonzero P) (hk1 : (x.keys P).1 ≠ NX.zeros) :
    ∃ i1 out2 r2 z,
      (newNoiseInitiator P (Keypair.default P sI)).sendMessage P (Keypair.default P eI) buf =
        (.ok (), i1, x.wire1 P) ∧
      (⟨NoiseSession.initSession P false [] (Keypair.default P sR)⟩ : ConnectionEncryptor).recvHandshake P
        (Keypair.default P eR) (x.wire1 P) = (.ok (x.wire2 P), ⟨r2⟩, x.wire2 P) ∧
      (⟨i1⟩ : ConnectionEncryptor).recvHandshake P rnd (x.wire2 P) = (.ok z, ⟨out2⟩, z) ∧
      out2.isTransport = true ∧ r2.isTransport = true ∧
      out2.getRemoteStaticPublicKey = some (P.publicOf sR) ∧ r2.getRemoteStaticPublicKey = some NX.zeros ∧
      ∃ i2 b2, b2.length = 1024 ∧ Agreed i2 r2 (x.keys P) ∧ i2.sendMessage P rnd b2 = (.ok (), out2, z) := by
  have hl1 : (x.wire1 P).length = 1024 := by
    subst hx
    show ((P.publicOf eI).toList ++ buf.drop 32).length = 1024
    rw [List.length_append, Arr.len, List.length_drop, hbuf]
  have hx' : x = ⟨[], eI, eR, sR, buf.drop 32, plain ((x.wire1 P).drop 80)⟩ := by
    rw [← hp2]
    exact hx
  obtain ⟨i1, i2, r1, r2, o, h1, h2, h3, h4, -, -, t1, t2, -, -, k1, k2, hag⟩ :=
    C38_handshake P hA hD [] (Keypair.default P sI) eI eR sR buf (x.wire1 P) (by omega) (by omega)
      (by omega) (by omega) x hx' hk
  have hol : o.length = 1024 := by
    have := (C37_length_kept P i1 rnd (x.wire2 P)).2
    rw [h4] at this
    have e2 := (C37_length_kept P r1 (Keypair.default P eR) (x.wire1 P)).1
    rw [h3] at e2
    simp only at this e2
    omega
  have hs : i2.sendCs = ⟨(x.keys P).1, 0⟩ := by
    simp only [NoiseSession.sendCs, hag.roles.1, if_true]
    exact hag.initiator.1
  have hm : i2.mc = 2 := hag.count.1
  have hsend : ∃ o2 z, i2.sendMessage P rnd o = (.ok (), o2, z) ∧ o2.is_transport = i2.is_transport ∧
      o2.hs = i2.hs := by
    rw [NoiseSession.send_transport rnd i2 o (by omega) (by omega), hs, CipherState.write_ok _ _ (by omega)
      (show (0 : UInt64) ≠ MAX_NONCE by decide) hk1]
    simp only
    rw [NoiseSession.count_ok _ _ (by simp; omega)]
    exact ⟨_, _, rfl, by simp, by simp⟩
  obtain ⟨o2, z, hsend, htr, hhs⟩ := hsend
  refine ⟨i1, o2, r2, z, h1, ?_, ?_, ?_, t2, ?_, k2, i2, o, hol, hag, hsend⟩
  · simp only [ConnectionEncryptor.recvHandshake, h2, h3]
  · simp only [ConnectionEncryptor.recvHandshake, h4, hsend]
  · exact htr.trans t1
  · rw [← k1]
    simp only [NoiseSession.getRemoteStaticPublicKey, htr, hhs]

/-- The handshake of an outbound and an inbound encryptor.  `eI`, `eR` and `sR` are secret keys, drawn or, for `sR`, given;
`sI` is the static key of the outbound side, which is never used.  Both report a complete handshake, and the outbound
side knows the static key of the inbound one (the inbound side, which learns none, reports the all-zero key).  But
`recv_handshake` of the outbound side has also sent a transport message `z`. -/
theorem C54_handshake (hA : AeadCorrect P) (hD : DhLaws P) (sI eI eR sR : Arr 32) (rnd unused : Keypair)
    (given : Bool) (x : NX.Run)
    (hx : x = ⟨[], eI, eR, sR, List.replicate 992 0, List.replicate 928 0⟩) (hk : x.KeysNonzero P)
    (hk1 : (x.keys P).1 ≠ NX.zeros) :
    let out := ConnectionEncryptor.newOutbound P (Keypair.default P sI)
    let inb := if given then ConnectionEncryptor.newInbound P unused (some (Keypair.default P sR))
      else ConnectionEncryptor.newInbound P (Keypair.default P sR) none
    ∃ out1 out2 inb1 z,
      out.initHandshake P (Keypair.default P eI) = (.ok (x.wire1 P), out1) ∧
      inb.recvHandshake P (Keypair.default P eR) (x.wire1 P) = (.ok (x.wire2 P), inb1, x.wire2 P) ∧
      out1.recvHandshake P rnd (x.wire2 P) = (.ok z, out2, z) ∧
      out2.isHandshakeComplete = true ∧ inb1.isHandshakeComplete = true ∧
      out2.getRemotePubkey = some (P.publicOf sR) ∧ inb1.getRemotePubkey = some NX.zeros ∧
      ∃ i2 buf, buf.length = 1024 ∧ Agreed i2 inb1.noise_session (x.keys P) ∧
        i2.sendMessage P rnd buf = (.ok (), out2.noise_session, z) := by
  intro out inb
  have hinb : inb = ⟨NoiseSession.initSession P false [] (Keypair.default P sR)⟩ := by
    show (if given then _ else _) = _
    cases given <;> rfl
  obtain ⟨buf, hb⟩ : ∃ b, List.replicate 1024 (0 : UInt8) = b := ⟨_, rfl⟩
  have hbl : buf.length = 1024 := by rw [← hb, List.length_replicate]
  have h992 : List.replicate 992 (0 : UInt8) = buf.drop 32 := by rw [← hb, List.drop_replicate]
  have h928 : ∀ p : Bytes, p.length = 32 → List.replicate 928 (0 : UInt8) =
      plain ((p ++ List.replicate 992 0).drop 80) := by
    intro p hp
    rw [List.drop_append, List.drop_of_length_le (by omega), hp, List.drop_replicate, plain, List.nil_append,
      List.length_replicate, List.take_replicate]
    rfl
  obtain ⟨p2, hp⟩ : ∃ b, List.replicate 928 (0 : UInt8) = b := ⟨_, rfl⟩
  rw [hp] at hx h928
  have hp2 : p2 = plain ((x.wire1 P).drop 80) := by
    rw [hx]
    exact h928 _ (Arr.len _)
  rw [h992] at hx
  obtain ⟨i1, out2, r2, z, h1, h2, h3, h4, h5, h6, h7, h8⟩ :=
    handshake_aux P hA hD sI eI eR sR rnd buf hbl x p2 hx hp2 hk hk1
  refine ⟨⟨i1⟩, ⟨out2⟩, ⟨r2⟩, z, ?_, ?_, h3, h4, h5, h6, h7, h8⟩
  · unfold ConnectionEncryptor.initHandshake
    rw [hb, show out.noise_session = newNoiseInitiator P (Keypair.default P sI) from rfl, h1]
  · rw [hinb]; exact h2

/-- If `z` is delivered, everything works: the two sides are in sync, one message later. -/
theorem C54_delivered (hA : AeadCorrect P) (i2 out2 r : NoiseSession) (keys : Arr 32 × Arr 32) (rnd : Keypair)
    (buf z : Bytes) (hag : Agreed i2 r keys) (hs : i2.sendMessage P rnd buf = (.ok (), out2, z)) :
    ∃ r', (r.recvMessage P z).1 = .ok () ∧ (r.recvMessage P z).2.1 = r' ∧ plain (r.recvMessage P z).2.2 = plain buf ∧
      InSync out2 r' keys 1 0 := by
  have hm : i2.mc = 2 := hag.count.1
  have hmr : r.mc = 2 := hag.count.2
  have hsc : i2.sendCs = ⟨keys.1, 0⟩ := by
    simp only [NoiseSession.sendCs, hag.roles.1, if_true]
    exact hag.initiator.1
  have hrc : r.recvCs = ⟨keys.1, 0⟩ := by
    simp only [NoiseSession.recvCs, hag.roles.2]
    exact hag.responder.1
  rcases NoiseSession.send_cases (P := P) rnd i2 buf (by omega) with ⟨h16, hl, hn, hk, hr⟩ | ⟨e, hr⟩
  · rw [NoiseSession.count_ok _ _ (by simp; omega), hs] at hr
    simp only [Prod.mk.injEq, true_and, hsc] at hr
    obtain ⟨ho2, hz⟩ := hr
    have hzl : z.length = buf.length := by
      rw [hz, CipherState.sealed_length]
      simp [body]; omega
    rw [hsc] at hk
    have hopen : ∀ h, P.aeadOpen keys.1 (prepNonce 0) [] (body z) (CipherState.tagArr z h) = some (body buf) := by
      intro h
      have e1 : body z = (P.aeadSeal keys.1 (prepNonce 0) [] (body buf)).1 := by
        rw [hz]; exact body_append _ _
      have e2 : CipherState.tagArr z h = (P.aeadSeal keys.1 (prepNonce 0) [] (body buf)).2 := by
        apply arr_ext
        show tag z = _
        rw [hz]; exact tag_append _ _
      rw [e1, e2]
      exact hA _ _ _ _
    have hrecv : r.recvMessage P z = (.ok (), { r.setRecv ⟨keys.1, 1⟩ with mc := 3 }, body buf ++ tag z) := by
      rw [NoiseSession.recv_transport r z (by omega) (by omega), hrc, CipherState.read_eq _ _ (by omega),
        CipherState.decrypt_some _ _ _ (body buf) _ (show (0 : UInt64) ≠ MAX_NONCE by decide) hk (hopen _)]
      simp only
      rw [NoiseSession.count_ok _ _ (by simp; omega)]
      simp [hmr]
    refine ⟨_, by rw [hrecv], rfl, ?_, ?_⟩
    · rw [hrecv]
      show plain (body buf ++ tag z) = plain buf
      unfold plain
      rw [List.length_append, tag_length (by omega), Nat.add_sub_cancel]
      exact List.take_left' rfl
    · rw [hrecv, ho2]
      have hi : i2.setSend ⟨keys.1, 1⟩ = { i2 with cs1 := ⟨keys.1, 1⟩ } := by
        simp [NoiseSession.setSend, hag.roles.1]
      have hr' : r.setRecv ⟨keys.1, 1⟩ = { r with cs1 := ⟨keys.1, 1⟩ } := by
        simp [NoiseSession.setRecv, hag.roles.2]
      refine ⟨⟨?_, ?_⟩, ⟨?_, ?_⟩, ⟨?_, ?_⟩, ⟨?_, ?_⟩⟩
      · simpa using hag.roles.1
      · simpa using hag.roles.2
      · simp [hm]
      · simp
      · show (i2.setSend ⟨keys.1, 0 + 1⟩).cs1 = _
        rw [show (0 + 1 : UInt64) = 1 from rfl, hi]
      · show (i2.setSend ⟨keys.1, 0 + 1⟩).cs2 = _
        rw [show (0 + 1 : UInt64) = 1 from rfl, hi]
        exact hag.initiator.2
      · show (r.setRecv ⟨keys.1, 1⟩).cs1 = _
        rw [hr']
      · show (r.setRecv ⟨keys.1, 1⟩).cs2 = _
        rw [hr']
        exact hag.responder.2
  · rw [hs] at hr
    cases hr

/-- If `z` is not delivered, the next message of the outbound side is not accepted, unless its ciphertext, made with
nonce 1, also decrypts with nonce 0. -/
theorem C54_lost (i2 out2 out3 r : NoiseSession) (keys : Arr 32 × Arr 32) (rnd rnd' : Keypair)
    (buf z buf' w : Bytes) (hag : Agreed i2 r keys) (hs : i2.sendMessage P rnd buf = (.ok (), out2, z))
    (hs' : out2.sendMessage P rnd' buf' = (.ok (), out3, w)) :
    w = NX.enc P keys.1 1 [] (plain buf') ∧
    ((r.recvMessage P w).1 = .ok () → ∃ p, P.aeadOpen keys.1 (NX.nonce 0) []
      (P.aeadSeal keys.1 (NX.nonce 1) [] (plain buf')).1 (P.aeadSeal keys.1 (NX.nonce 1) [] (plain buf')).2 =
        some p) := by
  have hm : i2.mc = 2 := hag.count.1
  have hmr : r.mc = 2 := hag.count.2
  have hsc : i2.sendCs = ⟨keys.1, 0⟩ := by
    simp only [NoiseSession.sendCs, hag.roles.1, if_true]
    exact hag.initiator.1
  have hrc : r.recvCs = ⟨keys.1, 0⟩ := by
    simp only [NoiseSession.recvCs, hag.roles.2]
    exact hag.responder.1
  rcases NoiseSession.send_cases (P := P) rnd i2 buf (by omega) with ⟨h16, hl, hn, hk, hr⟩ | ⟨e, hr⟩
  case inr =>
    rw [hs] at hr
    cases hr
  rw [NoiseSession.count_ok _ _ (by simp; omega), hs] at hr
  simp only [Prod.mk.injEq, true_and, hsc] at hr
  obtain ⟨ho2, -⟩ := hr
  have hm2 : out2.mc = 3 := by
    rw [ho2]; simp [hm]
  have hsc2 : out2.sendCs = ⟨keys.1, 1⟩ := by
    rw [ho2]
    exact NoiseSession.setSend_sendCs _ _
  rcases NoiseSession.send_cases (P := P) rnd' out2 buf' (by omega) with ⟨h16', hl', hn', hk', hr'⟩ | ⟨e, hr'⟩
  case inr =>
    rw [hs'] at hr'
    cases hr'
  rw [NoiseSession.count_ok _ _ (by simp; omega), hs'] at hr'
  simp only [Prod.mk.injEq, true_and, hsc2] at hr'
  have hw : w = NX.enc P keys.1 1 [] (plain buf') := by
    rw [hr'.2, sealed_eq]
    rfl
  refine ⟨hw, ?_⟩
  intro hok
  rcases NoiseSession.recv_cases (P := P) r w (by omega) with ⟨h, p, _, _, _, ho, _⟩ | ⟨e, hr⟩
  · refine ⟨p, ?_⟩
    rw [hrc, prepNonce_eq] at ho
    simp only at ho
    have e1 : body w = (P.aeadSeal keys.1 (NX.nonce 1) [] (plain buf')).1 := by
      rw [hw]; exact body_enc _ _ _ _
    have e2 : CipherState.tagArr w h = (P.aeadSeal keys.1 (NX.nonce 1) [] (plain buf')).2 := by
      apply arr_ext
      show tag w = _
      rw [hw]; exact tag_append _ _
    rw [e1, e2] at ho
    exact ho
  · rw [hr] at hok
    cases hok

/-- Nor are all that follow: whatever calls the outbound side makes (without clearing or rekeying), message number `j`
after `z` has the nonce `1 + j`.  The inbound side, which still expects nonce 0, rejects any of them, in any order and
any number of times, and stays as it is; unless one of them also decrypts with nonce 0. -/
theorem C54_all_lost (i2 out2 r : NoiseSession) (keys : Arr 32 × Arr 32) (rnd : Keypair)
    (buf z : Bytes) (hag : Agreed i2 r keys) (hs : i2.sendMessage P rnd buf = (.ok (), out2, z))
    (ops : List Op) (hl : ops.length < 2 ^ 127) (hops : ∀ op ∈ ops, op.changesKeys = false) :
    (∀ j p w, (sentIn (trace P out2 ops))[j]? = some (p, w) → w = NX.enc P keys.1 (1 + j) [] p) ∧
    ∀ deliveries : List Bytes, (∀ w ∈ deliveries, ∃ p, (p, w) ∈ sentIn (trace P out2 ops)) →
      ((∀ w ∈ deliveries, ∃ e, (r.recvMessage P w).1 = .err e) ∧ after P r (deliveries.map Op.recv) = r) ∨
      ∃ j p q, (sentIn (trace P out2 ops))[j]? = some (p, NX.enc P keys.1 (1 + j) [] p) ∧
        P.aeadOpen keys.1 (NX.nonce 0) [] (P.aeadSeal keys.1 (NX.nonce (1 + j)) [] p).1
          (P.aeadSeal keys.1 (NX.nonce (1 + j)) [] p).2 = some q := by
  have hm : i2.mc = 2 := hag.count.1
  have hmr : r.mc = 2 := hag.count.2
  have hsc : i2.sendCs = ⟨keys.1, 0⟩ := by
    simp only [NoiseSession.sendCs, hag.roles.1, if_true]
    exact hag.initiator.1
  have hrc : r.recvCs = ⟨keys.1, 0⟩ := by
    simp only [NoiseSession.recvCs, hag.roles.2]
    exact hag.responder.1
  rcases NoiseSession.send_cases (P := P) rnd i2 buf (by omega) with ⟨h16, hlen, hn, hk, hr⟩ | ⟨e, hr⟩
  case inr =>
    rw [hs] at hr
    cases hr
  rw [NoiseSession.count_ok _ _ (by simp; omega), hs] at hr
  simp only [Prod.mk.injEq, true_and, hsc] at hr
  obtain ⟨ho2, -⟩ := hr
  have hm2 : out2.mc = 3 := by
    rw [ho2]; simp [hm]
  have hsc2 : (if out2.i then out2.cs1 else out2.cs2) = ⟨keys.1, 1⟩ := by
    show out2.sendCs = _
    rw [ho2]
    exact NoiseSession.setSend_sendCs _ _
  have hnon := C41_nonces (P := P) out2 (by show 2 ≤ out2.mc; omega) ops (by show out2.mc + _ < _; omega) hops
  simp only [hsc2] at hnon
  have hone : (1 : UInt64).toNat = 1 := rfl
  rw [hone] at hnon
  refine ⟨fun j p w h => (hnon j p w h).1, fun deliveries hd => ?_⟩
  by_cases hall : ∀ w ∈ deliveries, ∃ e, (r.recvMessage P w).1 = .err e
  · exact .inl ⟨hall, C42_rejects_ignored (P := P) r (by show 2 ≤ r.mc; omega) deliveries hall⟩
  · right
    simp only [Classical.not_forall] at hall
    obtain ⟨w, hw, hne⟩ := hall
    obtain ⟨p, hp⟩ := hd w hw
    obtain ⟨j, hj⟩ := List.getElem?_of_mem hp
    have hw' := (hnon j p w hj).1
    rcases NoiseSession.recv_cases (P := P) r w (by omega) with ⟨h, q, _, _, _, ho, _⟩ | ⟨e, hr⟩
    · refine ⟨j, p, q, by rw [← hw']; exact hj, ?_⟩
      rw [hrc, prepNonce_eq] at ho
      simp only at ho
      have e1 : body w = (P.aeadSeal keys.1 (NX.nonce (1 + j)) [] p).1 := by
        rw [hw']; exact body_enc _ _ _ _
      have e2 : CipherState.tagArr w h = (P.aeadSeal keys.1 (NX.nonce (1 + j)) [] p).2 := by
        apply arr_ext
        show tag w = _
        rw [hw']; exact tag_append _ _
      rw [e1, e2] at ho
      exact ho
    · exact absurd ⟨e, by rw [hr]⟩ hne

/-- With the toy primitives it is rejected. -/
example :
    let i := (toyI.sendMessage toyPrims Keypair.empty (List.replicate 32 7)).2.1
    let w := (i.sendMessage toyPrims Keypair.empty (List.replicate 32 8)).2
    w.2 = NX.enc toyPrims (Arr.replicate 32 3) 1 [] (List.replicate 16 8) ∧
      (toyR.recvMessage toyPrims w.2).1 = .err .decryptionError := by decide +kernel

/-- The two stubs lose everything. -/
theorem C54_stubs (b : Bytes) : ConnectionEncryptor.encryptMessage b = [] ∧ ConnectionEncryptor.decryptMessage b = [] ∧
    (b ≠ [] → ConnectionEncryptor.decryptMessage (ConnectionEncryptor.encryptMessage b) ≠ b) :=
  ⟨rfl, rfl, fun h e => h e.symm⟩

/-! ## C57 -/

/-- `recv_handshake` panics exactly when `recv_message` does (C43). -/
theorem C57_panics_iff (c : ConnectionEncryptor) (rnd : Keypair) (bytes : Bytes)
    (hmax : c.noise_session.getMessageCount + 2 < 2 ^ 128) :
    (c.recvHandshake P rnd bytes).1 = .panic ↔ c.noise_session.getMessageCount = 1 ∧
      ((80 ≤ bytes.length ∧ bytes.length < 96) ∨ (2128 < bytes.length ∧ bytes.length ≤ 65535)) ∧
      StaticKeyAccepted P c.noise_session bytes := by
  rw [← C43_recv_panics_iff P c.noise_session bytes (by omega)]
  unfold ConnectionEncryptor.recvHandshake
  rcases h : c.noise_session.recvMessage P bytes with ⟨r, s, b⟩
  cases r with
  | err e => simp
  | panic => simp
  | ok u =>
    simp only [reduceCtorEq, iff_false]
    have hmc : s.mc ≤ c.noise_session.mc + 1 := by
      have := (exec_mc (P := P) c.noise_session (.recv bytes)).1
      simp only [Op.exec, h] at this
      rw [this]
      split <;> omega
    have hs := C43_send P s rnd b (by
      show s.mc < _
      have : c.noise_session.mc + 2 < 2 ^ 128 := hmax
      omega)
    rcases h2 : s.sendMessage P rnd b with ⟨r2, s2, b2⟩
    rw [h2] at hs
    cases r2 with
    | ok _ => simp
    | err _ => simp
    | panic => exact absurd rfl hs

/-- A fresh encryptor, inbound or outbound, does not panic, whatever it receives. -/
theorem C57_fresh (rnd rnd' : Keypair) (key : Option Keypair) (bytes : Bytes) :
    ((ConnectionEncryptor.newInbound P rnd key).recvHandshake P rnd' bytes).1 ≠ .panic ∧
    ((ConnectionEncryptor.newOutbound P rnd).recvHandshake P rnd' bytes).1 ≠ .panic := by
  constructor <;> intro h
  · rw [C57_panics_iff P _ _ _ (by simp [ConnectionEncryptor.newInbound, newNoiseResponder,
      NoiseSession.initSession, NoiseSession.getMessageCount])] at h
    exact absurd h.1 (by simp [ConnectionEncryptor.newInbound, newNoiseResponder,
      NoiseSession.initSession, NoiseSession.getMessageCount])
  · rw [C57_panics_iff P _ _ _ (by simp [ConnectionEncryptor.newOutbound, newNoiseInitiator,
      NoiseSession.initSession, NoiseSession.getMessageCount])] at h
    exact absurd h.1 (by simp [ConnectionEncryptor.newOutbound, newNoiseInitiator,
      NoiseSession.initSession, NoiseSession.getMessageCount])

/-- But a malicious server can make every client panic: 80 bytes in answer to `init_handshake`, which it can compute
from the client's first message and keys of its own. -/
theorem C57_remote_crash (hA : AeadCorrect P) (hD : DhLaws P) (sI eI eR sR : Arr 32) (rnd : Keypair) (x : NX.Run)
    (hx : x = ⟨[], eI, eR, sR, List.replicate 992 0, []⟩) (hk : x.KeysNonzero P) :
    ∃ c, (ConnectionEncryptor.newOutbound P (Keypair.default P sI)).initHandshake P (Keypair.default P eI) =
        (.ok (x.wire1 P), c) ∧
      (c.recvHandshake P rnd (x.er P ++ x.encS P)).1 = .panic := by
  obtain ⟨buf, hb⟩ : ∃ b, List.replicate 1024 (0 : UInt8) = b := ⟨_, rfl⟩
  have hbl : buf.length = 1024 := by rw [← hb, List.length_replicate]
  have h992 : List.replicate 992 (0 : UInt8) = buf.drop 32 := by rw [← hb, List.drop_replicate]
  rw [h992] at hx
  obtain ⟨i1, h1, h2⟩ := C43_attack P hA hD [] (Keypair.default P sI) eI eR sR buf (by omega) (by omega) x hx hk
  refine ⟨⟨i1⟩, ?_, ?_⟩
  · unfold ConnectionEncryptor.initHandshake
    rw [hb, show (ConnectionEncryptor.newOutbound P (Keypair.default P sI)).noise_session =
      NoiseSession.initSession P true [] (Keypair.default P sI) from rfl, h1]
  · unfold ConnectionEncryptor.recvHandshake
    rcases h : i1.recvMessage P (x.er P ++ x.encS P) with ⟨r, s, b⟩
    rw [h] at h2
    simp only at h2
    subst h2
    rfl

end

end SV2
