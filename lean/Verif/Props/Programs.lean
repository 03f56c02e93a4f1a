import Verif.Model.Programs
import Verif.Props.ExampleSetup
/-!
# C80: the setup_connection program under every schedule
-/

namespace SV2
open Law Examples Examples.Setup

/-! ## The states that schedules reach -/

namespace SetupRun

def poolAt (reply : Bytes) : Nat → PoolAt
  | 0 => .start
  | 1 => .bound
  | 2 => .reading
  | 3 => .replying reply
  | 4 => .writing reply
  | _ => .finished

def minerAt (f : Flags miningSuccessFlags) : Nat → MinerAt
  | 0 => .start
  | 1 => .sending
  | 2 => .sent
  | 3 => .bound
  | 4 => .reading
  | _ => .finished (some f)

/-- The program when the pool has made `i` calls and the miner `j`. -/
def state (w reply : Bytes) (f : Flags miningSuccessFlags) (i j : Nat) (d1 d2 : Bool) : World PoolAt MinerAt :=
  ⟨{ task := poolAt reply i, dead := d1, bound := decide (1 ≤ i)
     inbox := if j = 0 then [] else if j = 1 then [⟨[], false⟩] else [⟨w, true⟩]
     accepted := if i ≤ 1 then 0 else 1 },
   { task := minerAt f j, dead := d2, bound := decide (3 ≤ j)
     inbox := if i ≤ 3 then [] else if i = 4 then [⟨[], false⟩] else [⟨reply, true⟩]
     accepted := if j ≤ 3 then 0 else 1 }⟩

/-- Which of these states are reached. -/
def Ok (i j : Nat) (d1 d2 : Bool) : Prop :=
  i ≤ 5 ∧ j ≤ 5 ∧ (1 ≤ j → 1 ≤ i) ∧ (2 ≤ i → 1 ≤ j) ∧ (3 ≤ i → 2 ≤ j) ∧ (4 ≤ i → 3 ≤ j) ∧ (4 ≤ j → 4 ≤ i) ∧
    (5 ≤ j → 5 ≤ i) ∧ (d1 = true → i = 3 ∧ j ≤ 3) ∧ (d2 = true → i = 0 ∧ j = 0)

instance (i j : Nat) (d1 d2 : Bool) : Decidable (Ok i j d1 d2) := by unfold Ok; infer_instance

variable {m : SetupConnection} {w reply : Bytes} {f : Flags miningSuccessFlags}

/-- What the two handlers do on the bytes of an honest exchange. -/
structure Honest (m : SetupConnection) (w reply : Bytes) (f : Flags miningSuccessFlags) : Prop where
  send : minerSend m = .ok w
  pool : poolHandle (tryRead freshBuffer w) = .ok (some reply)
  miner : minerHandle (tryRead freshBuffer reply) = .ok (some f)
  w_ne : w ≠ []
  reply_ne : reply ≠ []
  w_le : w.length ≤ 1024
  reply_le : reply.length ≤ 1024

theorem take_whole {b : Bytes} {n : Nat} (h : b.length ≤ 1024) (hn : 1023 ≤ n) : b.take (n + 1) = b :=
  List.take_of_length_le (by omega)

theorem isEmpty_ne {b : Bytes} (h : b ≠ []) : b.isEmpty = false := by
  cases b with
  | nil => exact absurd rfl h
  | cons _ _ => rfl

/-- The counters after a turn. -/
def nxt : Role → Nat → Nat → Bool → Bool → Nat × Nat × Bool × Bool
  | .pool, i, j, d1, d2 =>
    if d1 || d2 || decide (j = 5) then (i, j, d1, d2)
    else match i with
      | 0 => (1, j, d1, d2)
      | 1 => if 1 ≤ j then (2, j, d1, d2) else (1, j, d1, d2)
      | 2 => if 2 ≤ j then (3, j, d1, d2) else (2, j, d1, d2)
      | 3 => if 3 ≤ j then (4, j, d1, d2) else (3, j, true, d2)
      | _ => (5, j, d1, d2)
  | .miner, i, j, d1, d2 =>
    if d2 || decide (j = 5) then (i, j, d1, d2)
    else match j with
      | 0 => if 1 ≤ i then (i, 1, d1, d2) else (i, 0, d1, true)
      | 1 => (i, 2, d1, d2)
      | 2 => (i, 3, d1, d2)
      | 3 => if 4 ≤ i then (i, 4, d1, d2) else (i, 3, d1, d2)
      | _ => if 5 ≤ i then (i, 5, d1, d2) else (i, 4, d1, d2)

theorem nxt_ok : ∀ i ≤ 5, ∀ j ≤ 5, ∀ d1 d2 who, Ok i j d1 d2 →
    Ok (nxt who i j d1 d2).1 (nxt who i j d1 d2).2.1 (nxt who i j d1 d2).2.2.1 (nxt who i j d1 d2).2.2.2 := by
  intro i hi j hj d1 d2 who
  have hi' : i = 0 ∨ i = 1 ∨ i = 2 ∨ i = 3 ∨ i = 4 ∨ i = 5 := by omega
  have hj' : j = 0 ∨ j = 1 ∨ j = 2 ∨ j = 3 ∨ j = 4 ∨ j = 5 := by omega
  cases who <;> rcases hi' with rfl | rfl | rfl | rfl | rfl | rfl <;>
    rcases hj' with rfl | rfl | rfl | rfl | rfl | rfl <;> cases d1 <;> cases d2 <;> decide

/-- One turn. -/
theorem step_state (h : Honest m w reply f) (i j : Nat) (d1 d2 : Bool) (ho : Ok i j d1 d2) (who : Role) (n : Nat)
    (hn : 1023 ≤ n) :
    World.step poolNext (minerNext m) (state w reply f i j d1 d2) (who, n) =
      state w reply f (nxt who i j d1 d2).1 (nxt who i j d1 d2).2.1 (nxt who i j d1 d2).2.2.1
        (nxt who i j d1 d2).2.2.2 := by
  obtain ⟨hs, hp, hm, hw0, hr0, hwl, hrl⟩ := h
  obtain ⟨hi, hj, h1, h2, h3, h4, h5, h6, h7, h8⟩ := ho
  have e1 := take_whole hwl hn
  have e2 := take_whole hrl hn
  have hi' : i = 0 ∨ i = 1 ∨ i = 2 ∨ i = 3 ∨ i = 4 ∨ i = 5 := by omega
  have hj' : j = 0 ∨ j = 1 ∨ j = 2 ∨ j = 3 ∨ j = 4 ∨ j = 5 := by omega
  rcases hi' with rfl | rfl | rfl | rfl | rfl | rfl <;> rcases hj' with rfl | rfl | rfl | rfl | rfl | rfl <;>
    first
    | omega
    | (cases d1 <;> cases d2 <;> first
        | (exfalso; simp at h7 h8; done)
        | (cases who <;>
            simp [World.step, World.ended, state, turn, nxt, poolAt, minerAt, poolNext, minerNext, finishLast, hs, hp, hm,
              e1, e2, hw0, hr0]))

/-- The schedules in which every read gets all that has been written. -/
def Whole (schedule : List (Role × Nat)) : Prop := ∀ t ∈ schedule, 1023 ≤ t.2

/-- The counters after a schedule. -/
def nxts (schedule : List (Role × Nat)) (c : Nat × Nat × Bool × Bool) : Nat × Nat × Bool × Bool :=
  schedule.foldl (fun c t => nxt t.1 c.1 c.2.1 c.2.2.1 c.2.2.2) c

theorem nxts_ok (schedule : List (Role × Nat)) : ∀ c : Nat × Nat × Bool × Bool, Ok c.1 c.2.1 c.2.2.1 c.2.2.2 →
    Ok (nxts schedule c).1 (nxts schedule c).2.1 (nxts schedule c).2.2.1 (nxts schedule c).2.2.2 := by
  induction schedule with
  | nil => exact fun c h => h
  | cons t rest ih => exact fun c h => ih _ (nxt_ok _ h.1 _ h.2.1 _ _ t.1 h)

theorem run_nxts (h : Honest m w reply f) (schedule : List (Role × Nat)) (hw : Whole schedule) :
    ∀ c : Nat × Nat × Bool × Bool, Ok c.1 c.2.1 c.2.2.1 c.2.2.2 →
      World.run poolNext (minerNext m) (state w reply f c.1 c.2.1 c.2.2.1 c.2.2.2) schedule =
        state w reply f (nxts schedule c).1 (nxts schedule c).2.1 (nxts schedule c).2.2.1 (nxts schedule c).2.2.2 := by
  induction schedule with
  | nil => exact fun c _ => rfl
  | cons t rest ih =>
    intro c ho
    have hs := step_state h _ _ _ _ ho t.1 t.2 (hw t (List.mem_cons_self ..))
    have hn := nxt_ok _ ho.1 _ ho.2.1 _ _ t.1 ho
    have he := ih (fun t ht => hw t (List.mem_cons_of_mem _ ht)) _ hn
    rw [← hs] at he
    exact he

theorem after_nxts (h : Honest m w reply f) (schedule : List (Role × Nat)) (hw : Whole schedule) :
    after m schedule = state w reply f (nxts schedule (0, 0, false, false)).1 (nxts schedule (0, 0, false, false)).2.1
      (nxts schedule (0, 0, false, false)).2.2.1 (nxts schedule (0, 0, false, false)).2.2.2 :=
  run_nxts h schedule hw (0, 0, false, false) (by decide)

theorem after_state (h : Honest m w reply f) (schedule : List (Role × Nat)) (hw : Whole schedule) :
    ∃ i j d1 d2, Ok i j d1 d2 ∧ after m schedule = state w reply f i j d1 d2 :=
  ⟨_, _, _, _, nxts_ok schedule (0, 0, false, false) (by decide), after_nxts h schedule hw⟩

/-- An honest miner and the pool. -/
theorem honest {minv maxv : UInt16} {flags : Flags miningSetupFlags} {host : String} {port : UInt16}
    {vendor hardware fw dev : String}
    (hm : SetupConnection.newMining minv maxv flags host port vendor hardware fw dev = .ok m)
    (hw : minerSend m = .ok w) (hl : w.length ≤ 1024) :
    Honest m w (Wire.frame ⟨.setupConnectionSuccess, Wire.setupConnectionSuccess (successReply minv)⟩)
      ⟨1, by decide⟩ := by
  obtain ⟨reply, g, h1, h2, h3, h4⟩ := C59_exchange minv maxv flags host port vendor hardware fw dev m hm w hw hl
  have hb : Built m := .inl ⟨minv, maxv, flags, host, port, vendor, hardware, fw, dev, hm⟩
  have hv : ∃ v, m = .mining v ∧ v.min_version = minv := by
    unfold SetupConnection.newMining at hm
    obtain ⟨v, hv, hp⟩ := Out.bind_eq_ok hm
    cases hp
    exact ⟨v, rfl, (setup_new_iff.mp hv).1⟩
  obtain ⟨v, rfl, rfl⟩ := hv
  have rt := C11_roundtrip.2.2.2.1 _ hb
  have hle := size_setupConnection _ ((built_setupConnection _).mp hb)
  have hw' := hw
  rw [minerSend_eq rt.1 (by omega)] at hw'
  cases hw'
  have hl' := hl
  rw [wire_frame_length] at hl'
  obtain ⟨h5, h6⟩ := arrives rt (by simp only at hl'; omega)
  have hp := reply_eq v _ rfl _ h5 h6
  have hr : reply = Wire.frame ⟨.setupConnectionSuccess, Wire.setupConnectionSuccess (successReply v.min_version)⟩ :=
     Option.some.inj (Out.ok.inj (h1.symm.trans hp))
  subst hr
  refine ⟨hw, h1, h4, ?_, ?_, hl, ?_⟩
  · intro h
    have := congrArg List.length h
    rw [wire_frame_length, List.length_nil] at this
    omega
  · intro h
    have := congrArg List.length h
    rw [wire_frame_length, List.length_nil] at this
    omega
  · have := size_setupSuccess (successReply v.min_version)
    rw [wire_frame_length]
    simp only
    omega

end SetupRun

open SetupRun

/-- A valid connection request of a miner, and any interleaving of the two tasks in which reads get all that was
written.  If the miner has returned, it printed exactly the flag the pool sent, and the pool has returned.  The miner
panics only if it connected before the pool had bound its listener, and the pool only if it wanted to answer before the
miner had bound its own; no other panic is possible. -/
theorem C80_outcomes (minv maxv : UInt16) (flags : Flags miningSetupFlags) (host : String) (port : UInt16)
    (vendor hardware fw dev : String) (m : SetupConnection)
    (hm : SetupConnection.newMining minv maxv flags host port vendor hardware fw dev = .ok m) (w : Bytes)
    (hw : minerSend m = .ok w) (hl : w.length ≤ 1024) (schedule : List (Role × Nat)) (hs : ∀ t ∈ schedule, 1023 ≤ t.2) :
    let s := after m schedule
    (∀ printed, s.miner.task = .finished printed → printed = some ⟨1, by decide⟩ ∧ s.pool.task = .finished) ∧
    (s.miner.dead = true → s.miner.task = .start ∧ s.pool.bound = false) ∧
    (s.pool.dead = true → s.miner.inbox = [] ∧ s.miner.accepted = 0 ∧ ∃ reply, s.pool.task = .replying reply) ∧
    s.pool.task ≠ .panicking ∧ (s.miner.task = .panicking → False) := by
  obtain ⟨i, j, d1, d2, ho, he⟩ := after_state (honest hm hw hl) schedule hs
  intro s
  have he : s = _ := he
  rw [he]
  obtain ⟨hi, hj, h1, h2, h3, h4, h5, h6, h7, h8⟩ := ho
  have hi' : i = 0 ∨ i = 1 ∨ i = 2 ∨ i = 3 ∨ i = 4 ∨ i = 5 := by omega
  have hj' : j = 0 ∨ j = 1 ∨ j = 2 ∨ j = 3 ∨ j = 4 ∨ j = 5 := by omega
  rcases hi' with rfl | rfl | rfl | rfl | rfl | rfl <;> rcases hj' with rfl | rfl | rfl | rfl | rfl | rfl <;>
    first
    | omega
    | (cases d1 <;> cases d2 <;> first
        | (exfalso; simp at h7 h8; done)
        | simp [state, poolAt, minerAt])

/- The request of the example itself. -/
example : ∃ m w, exampleSetup = .ok m ∧ minerSend m = .ok w ∧ w.length ≤ 1024 := ⟨_, _, rfl, rfl, by decide⟩

/-- When no turn changes anything any more, the program is in one of three states: it is done; the miner has panicked
for want of a listener; or the pool has, and the miner waits for a connection that nobody will make. -/
theorem C80_ends (minv maxv : UInt16) (flags : Flags miningSetupFlags) (host : String) (port : UInt16)
    (vendor hardware fw dev : String) (m : SetupConnection)
    (hm : SetupConnection.newMining minv maxv flags host port vendor hardware fw dev = .ok m) (w : Bytes)
    (hw : minerSend m = .ok w) (hl : w.length ≤ 1024) (schedule : List (Role × Nat)) (hs : ∀ t ∈ schedule, 1023 ≤ t.2)
    (hend : ∀ who, after m (schedule ++ [(who, 1023)]) = after m schedule) :
    let s := after m schedule
    (s.miner.task = .finished (some ⟨1, by decide⟩) ∧ s.pool.dead = false) ∨ s.miner.dead = true ∨
      (s.pool.dead = true ∧ s.miner.task = .bound) := by
  have h := honest hm hw hl
  obtain ⟨i, j, d1, d2, ho, he⟩ := after_state h schedule hs
  intro s
  have he' : s = _ := he
  have hend' : ∀ who, World.step poolNext (minerNext m) (after m schedule) (who, 1023) = after m schedule := by
    intro who
    have := hend who
    unfold after World.run at this
    rw [List.foldl_append] at this
    exact this
  rw [he] at hend'
  have hp := hend' .pool
  have hm' := hend' .miner
  rw [step_state h i j d1 d2 ho _ _ (by decide)] at hp hm'
  rw [he']
  obtain ⟨hi, hj, h1, h2, h3, h4, h5, h6, h7, h8⟩ := ho
  have hi' : i = 0 ∨ i = 1 ∨ i = 2 ∨ i = 3 ∨ i = 4 ∨ i = 5 := by omega
  have hj' : j = 0 ∨ j = 1 ∨ j = 2 ∨ j = 3 ∨ j = 4 ∨ j = 5 := by omega
  clear hend hend' he he' s hs
  rcases hi' with rfl | rfl | rfl | rfl | rfl | rfl <;> rcases hj' with rfl | rfl | rfl | rfl | rfl | rfl <;>
    first
    | omega
    | (cases d1 <;> cases d2 <;> first
        | (exfalso; simp at h7 h8; done)
        | (simp [state, poolAt, minerAt]; done)
        | (simp [state, poolAt, minerAt, nxt] at hp hm'))

/-- Once both listeners are bound every turn of the pool counts until it is done, and every turn of the miner after
that. -/
theorem SetupRun.advance (schedule : List (Role × Nat)) : ∀ i j, Ok i j false false → 1 ≤ i → 3 ≤ j →
    ∃ i' j', nxts schedule (i, j, false, false) = (i', j', false, false) ∧ Ok i' j' false false ∧
      min 5 (i + schedule.countP (fun t => t.1 = .pool)) ≤ i' ∧ j ≤ j' ∧
      (5 ≤ i → min 5 (j + schedule.countP (fun t => t.1 = .miner)) ≤ j') := by
  induction schedule with
  | nil => exact fun i j ho _ _ => ⟨i, j, rfl, ho, by simp; omega, Nat.le_refl _, fun _ => by simp; omega⟩
  | cons t rest ih =>
    intro i j ho hi1 hj3
    have hn := nxt_ok i ho.1 j ho.2.1 false false t.1 ho
    obtain ⟨who, n⟩ := t
    have key : ∃ i1 j1, nxt who i j false false = (i1, j1, false, false) ∧ i ≤ i1 ∧ j ≤ j1 ∧
        (who = .pool → min 5 (i + 1) ≤ i1) ∧ (who = .miner → 5 ≤ i → min 5 (j + 1) ≤ j1) := by
      obtain ⟨hi, hj, h1, h2, h3, h4, h5, h6, -, -⟩ := ho
      have hi' : i = 1 ∨ i = 2 ∨ i = 3 ∨ i = 4 ∨ i = 5 := by omega
      have hj' : j = 3 ∨ j = 4 ∨ j = 5 := by omega
      cases who <;> rcases hi' with rfl | rfl | rfl | rfl | rfl <;> rcases hj' with rfl | rfl | rfl <;>
        first | omega | (refine ⟨_, _, rfl, ?_⟩; decide)
    obtain ⟨i1, j1, hnx, hii, hjj, hpi, hmj⟩ := key
    rw [hnx] at hn
    obtain ⟨i', j', he, ho', hc, hj', hcm⟩ := ih i1 j1 hn (by omega) (by omega)
    refine ⟨i', j', ?_, ho', ?_, by omega, fun h5 => ?_⟩
    · show nxts rest (nxt who i j false false) = _
      rw [hnx, he]
    · rw [List.countP_cons]
      cases who with
      | pool => have := hpi rfl; simp only [decide_true, if_true] at *; omega
      | miner => simp; omega
    · have := hcm (by omega)
      rw [List.countP_cons]
      cases who with
      | miner => have := hmj rfl h5; simp only [decide_true, if_true] at *; omega
      | pool => simp; omega

/-- If each side binds its listener in time, the program ends well under every schedule that goes on for long enough:
the pool binds, then the miner connects, writes and binds; after that, in any order, four more turns of the pool and, once
these are over, two of the miner. -/
theorem C80_completes (minv maxv : UInt16) (flags : Flags miningSetupFlags) (host : String) (port : UInt16)
    (vendor hardware fw dev : String) (m : SetupConnection)
    (hm : SetupConnection.newMining minv maxv flags host port vendor hardware fw dev = .ok m) (w : Bytes)
    (hw : minerSend m = .ok w) (hl : w.length ≤ 1024) (r1 r2 : List (Role × Nat))
    (hs : ∀ t ∈ r1 ++ r2, 1023 ≤ t.2) (h1 : 4 ≤ r1.countP (fun t => t.1 = .pool))
    (h2 : 2 ≤ r2.countP (fun t => t.1 = .miner)) :
    let s := after m ([(.pool, 1023), (.miner, 1023), (.miner, 1023), (.miner, 1023)] ++ r1 ++ r2)
    s.miner.task = .finished (some ⟨1, by decide⟩) ∧ s.pool.task = .finished ∧ s.pool.dead = false := by
  have h := honest hm hw hl
  intro s
  obtain ⟨i, j, he, ho, hc, hj, -⟩ := advance r1 1 3 (by decide) (by decide) (by decide)
  obtain ⟨i', j', he', ho', hc', hj', hm'⟩ := advance r2 i j ho (by omega) hj
  have hi : i = 5 := by have := ho.1; omega
  have := hm' (by omega)
  have hj5 : j' = 5 := by have := ho'.2.1; omega
  have hi5 : i' = 5 := by have := ho'.1; have := ho'.2.2.2.2.2.2.2.1; omega
  have hfin : s = _ := after_nxts h ([(.pool, 1023), (.miner, 1023), (.miner, 1023), (.miner, 1023)] ++ r1 ++ r2) (by
    intro t ht
    rw [List.append_assoc, List.mem_append] at ht
    rcases ht with ht | ht
    · simp at ht
      rcases ht with rfl | rfl <;> decide
    · exact hs t ht)
  have hn : nxts ([(.pool, 1023), (.miner, 1023), (.miner, 1023), (.miner, 1023)] ++ r1 ++ r2) (0, 0, false, false) =
      (5, 5, false, false) := by
    unfold nxts at he he' ⊢
    rw [List.foldl_append, List.foldl_append]
    show List.foldl _ (List.foldl _ (1, 3, false, false) r1) r2 = _
    rw [he, he', hi5, hj5]
  rw [hfin, hn]
  exact ⟨rfl, rfl, rfl⟩

/-- Nothing makes the sides wait for each other, so both failures happen: the miner's first turn can come before the
pool's, and the pool's answer before the miner listens. -/
theorem C80_races (minv maxv : UInt16) (flags : Flags miningSetupFlags) (host : String) (port : UInt16)
    (vendor hardware fw dev : String) (m : SetupConnection)
    (hm : SetupConnection.newMining minv maxv flags host port vendor hardware fw dev = .ok m) (w : Bytes)
    (hw : minerSend m = .ok w) (hl : w.length ≤ 1024) (more : List (Role × Nat)) (hs : ∀ t ∈ more, 1023 ≤ t.2) :
    (after m ((.miner, 1023) :: more)).miner.dead = true ∧
    (let s := after m ([(.pool, 1023), (.miner, 1023), (.miner, 1023), (.pool, 1023), (.pool, 1023), (.pool, 1023)] ++ more)
     s.pool.dead = true ∧ s.miner.dead = false ∧ s.miner.accepted = 0) := by
  have h := honest hm hw hl
  have fix1 : ∀ l : List (Role × Nat), nxts l (0, 0, false, true) = (0, 0, false, true) := by
    intro l
    induction l with
    | nil => rfl
    | cons t rest ih =>
      obtain ⟨who, n⟩ := t
      cases who <;> exact ih
  have fix2 : ∀ l : List (Role × Nat), ∀ j, j = 2 ∨ j = 3 → ∃ j', (j' = 2 ∨ j' = 3) ∧
      nxts l (3, j, true, false) = (3, j', true, false) := by
    intro l
    induction l with
    | nil => exact fun j hj => ⟨j, hj, rfl⟩
    | cons t rest ih =>
      obtain ⟨who, n⟩ := t
      intro j hj
      rcases hj with rfl | rfl <;> cases who
      · exact ih 2 (by decide)
      · exact ih 3 (by decide)
      · exact ih 3 (by decide)
      · exact ih 3 (by decide)
  constructor
  · rw [after_nxts h _ (by
      intro t ht
      rcases List.mem_cons.mp ht with rfl | ht
      · decide
      · exact hs t ht)]
    show (state w _ _ (nxts more (0, 0, false, true)).1 (nxts more (0, 0, false, true)).2.1
      (nxts more (0, 0, false, true)).2.2.1 (nxts more (0, 0, false, true)).2.2.2).miner.dead = true
    rw [fix1]
    rfl
  · intro s
    have hfin : s = _ := after_nxts h ([(.pool, 1023), (.miner, 1023), (.miner, 1023), (.pool, 1023), (.pool, 1023),
        (.pool, 1023)] ++ more) (by
      intro t ht
      rcases List.mem_append.mp ht with ht | ht
      · simp at ht
        rcases ht with rfl | rfl | rfl <;> decide
      · exact hs t ht)
    obtain ⟨j, hj, hn⟩ := fix2 more 2 (by decide)
    have hn' : nxts ([(.pool, 1023), (.miner, 1023), (.miner, 1023), (.pool, 1023), (.pool, 1023), (.pool, 1023)] ++ more)
        (0, 0, false, false) = (3, j, true, false) := by
      rw [← hn]
      rfl
    rw [hfin, hn']
    rcases hj with rfl | rfl <;> exact ⟨rfl, rfl, rfl⟩

/-! ## A request that the pool does not answer -/

namespace SetupRun

def silentAt : Nat → PoolAt
  | 0 => .start
  | 1 => .bound
  | 2 => .reading
  | _ => .finished

/-- The program with such a request when the pool has made `i` calls and the miner `j`. -/
def silent (w : Bytes) (i j : Nat) (d : Bool) : World PoolAt MinerAt :=
  ⟨{ task := silentAt i, bound := decide (1 ≤ i)
     inbox := if j = 0 then [] else if j = 1 then [⟨[], false⟩] else [⟨w, true⟩]
     accepted := if i ≤ 1 then 0 else 1 },
   { task := minerAt ⟨1, by decide⟩ j, dead := d, bound := decide (3 ≤ j) }⟩

def Quiet (i j : Nat) (d : Bool) : Prop :=
  i ≤ 3 ∧ j ≤ 3 ∧ (1 ≤ j → 1 ≤ i) ∧ (2 ≤ i → 1 ≤ j) ∧ (3 ≤ i → 2 ≤ j) ∧ (d = true → i = 0 ∧ j = 0)

def nxtQuiet : Role → Nat → Nat → Bool → Nat × Nat × Bool
  | .pool, i, j, d =>
    if d then (i, j, d)
    else match i with
      | 0 => (1, j, d)
      | 1 => if 1 ≤ j then (2, j, d) else (1, j, d)
      | 2 => if 2 ≤ j then (3, j, d) else (2, j, d)
      | _ => (3, j, d)
  | .miner, i, j, d =>
    if d then (i, j, d)
    else match j with
      | 0 => if 1 ≤ i then (i, 1, d) else (i, 0, true)
      | 1 => (i, 2, d)
      | _ => (i, 3, d)

theorem step_silent (hs : minerSend m = .ok w) (hp : poolHandle (tryRead freshBuffer w) = .ok none) (hw0 : w ≠ [])
    (hwl : w.length ≤ 1024) (i j : Nat) (d : Bool) (ho : Quiet i j d) (who : Role) (n : Nat) (hn : 1023 ≤ n) :
    World.step poolNext (minerNext m) (silent w i j d) (who, n) =
      silent w (nxtQuiet who i j d).1 (nxtQuiet who i j d).2.1 (nxtQuiet who i j d).2.2 ∧
    Quiet (nxtQuiet who i j d).1 (nxtQuiet who i j d).2.1 (nxtQuiet who i j d).2.2 := by
  obtain ⟨hi, hj, h1, h2, h3, h4⟩ := ho
  have e1 := take_whole hwl hn
  have hi' : i = 0 ∨ i = 1 ∨ i = 2 ∨ i = 3 := by omega
  have hj' : j = 0 ∨ j = 1 ∨ j = 2 ∨ j = 3 := by omega
  rcases hi' with rfl | rfl | rfl | rfl <;> rcases hj' with rfl | rfl | rfl | rfl <;>
    first
    | omega
    | (cases d <;> first
        | (exfalso; simp at h4; done)
        | (cases who <;>
            simp [World.step, World.ended, silent, turn, nxtQuiet, Quiet, silentAt, minerAt, poolNext, minerNext, finishLast, hs,
              hp, e1, hw0]))

theorem after_silent (hs : minerSend m = .ok w) (hp : poolHandle (tryRead freshBuffer w) = .ok none) (hw0 : w ≠ [])
    (hwl : w.length ≤ 1024) (schedule : List (Role × Nat)) (hw : Whole schedule) :
    ∃ i j d, Quiet i j d ∧ after m schedule = silent w i j d := by
  have key : ∀ (schedule : List (Role × Nat)), Whole schedule → ∀ i j d, Quiet i j d →
      ∃ i' j' d', Quiet i' j' d' ∧ World.run poolNext (minerNext m) (silent w i j d) schedule = silent w i' j' d' := by
    intro schedule
    induction schedule with
    | nil => exact fun _ i j d h => ⟨i, j, d, h, rfl⟩
    | cons t rest ih =>
      intro hw i j d ho
      obtain ⟨h1, h2⟩ := step_silent hs hp hw0 hwl i j d ho t.1 t.2 (hw t (List.mem_cons_self ..))
      obtain ⟨i', j', d', h3, h4⟩ := ih (fun t ht => hw t (List.mem_cons_of_mem _ ht)) _ _ _ h2
      rw [← h1] at h4
      exact ⟨i', j', d', h3, h4⟩
  exact key schedule hw 0 0 false (by unfold Quiet; omega)

/-- The pool has no reply to a request for job negotiation. -/
theorem no_reply {minv maxv : UInt16} {flags : Flags jobNegotiationSetupFlags} {host : String} {port : UInt16}
    {vendor hardware fw dev : String}
    (hm : SetupConnection.newJobNegotiation minv maxv flags host port vendor hardware fw dev = .ok m)
    (hw : minerSend m = .ok w) (hl : w.length ≤ 1024) : poolHandle (tryRead freshBuffer w) = .ok none ∧ w ≠ [] := by
  have hb : Built m := .inr ⟨minv, maxv, flags, host, port, vendor, hardware, fw, dev, hm⟩
  obtain ⟨v, rfl⟩ : ∃ v, m = .jobNegotiation v := by
    unfold SetupConnection.newJobNegotiation at hm
    obtain ⟨v, hv, hp⟩ := Out.bind_eq_ok hm
    cases hp
    exact ⟨v, rfl⟩
  have rt := C11_roundtrip.2.2.2.1 _ hb
  have hle := size_setupConnection _ ((built_setupConnection _).mp hb)
  rw [minerSend_eq rt.1 (by omega)] at hw
  cases hw
  have hl' := hl
  rw [wire_frame_length] at hl'
  obtain ⟨h5, h6⟩ := arrives rt (by simp only at hl'; omega)
  refine ⟨?_, fun h => ?_⟩
  · unfold poolHandle
    rw [h5]
    show (unwrap (unframe SetupConnection ⟨Frameable.messageType SetupConnection, _⟩) >>= _) = _
    rw [h6]
    rfl
  · have := congrArg List.length h
    rw [wire_frame_length, List.length_nil] at this
    omega

end SetupRun

/-- A request for job negotiation, which the pool does not answer: under every schedule it never panics, and the miner never
gets a connection, prints nothing and does not return.  When no turn changes anything any more, the pool has
returned and the miner waits for ever, or the miner has panicked for want of a listener. -/
theorem C80_unanswered (minv maxv : UInt16) (flags : Flags jobNegotiationSetupFlags) (host : String) (port : UInt16)
    (vendor hardware fw dev : String) (m : SetupConnection)
    (hm : SetupConnection.newJobNegotiation minv maxv flags host port vendor hardware fw dev = .ok m) (w : Bytes)
    (hw : minerSend m = .ok w) (hl : w.length ≤ 1024) (schedule : List (Role × Nat)) (hs : ∀ t ∈ schedule, 1023 ≤ t.2) :
    let s := after m schedule
    s.miner.inbox = [] ∧ (∀ printed, s.miner.task ≠ .finished printed) ∧ s.miner.task ≠ .panicking ∧
    s.pool.dead = false ∧ s.pool.task ≠ .panicking ∧
    (s.miner.dead = true → s.miner.task = .start ∧ s.pool.bound = false) ∧
    ((∀ who, after m (schedule ++ [(who, 1023)]) = s) →
      s.miner.dead = true ∨ (s.pool.task = .finished ∧ s.miner.task = .bound ∧ s.miner.dead = false)) := by
  obtain ⟨hp, hw0⟩ := no_reply hm hw hl
  obtain ⟨i, j, d, ho, he⟩ := after_silent hw hp hw0 hl schedule hs
  intro s
  have he' : s = _ := he
  have hend' : (∀ who, after m (schedule ++ [(who, 1023)]) = s) →
      ∀ who, silent w (nxtQuiet who i j d).1 (nxtQuiet who i j d).2.1 (nxtQuiet who i j d).2.2 = silent w i j d := by
    intro hend who
    have := hend who
    unfold after World.run at this
    rw [List.foldl_append] at this
    rw [← he', ← this, ← (step_silent hw hp hw0 hl i j d ho who 1023 (by decide)).1, ← he]
    rfl
  rw [he'] at hend' ⊢
  obtain ⟨hi, hj, h1, h2, h3, h4⟩ := ho
  have hi' : i = 0 ∨ i = 1 ∨ i = 2 ∨ i = 3 := by omega
  have hj' : j = 0 ∨ j = 1 ∨ j = 2 ∨ j = 3 := by omega
  clear he he' s hs
  have : ∀ h : (∀ who, silent w (nxtQuiet who i j d).1 (nxtQuiet who i j d).2.1 (nxtQuiet who i j d).2.2 = silent w i j d),
      (silent w i j d).miner.dead = true ∨ ((silent w i j d).pool.task = .finished ∧ (silent w i j d).miner.task = .bound ∧
        (silent w i j d).miner.dead = false) := by
    intro h
    have hp := h .pool
    have hm := h .miner
    rcases hi' with rfl | rfl | rfl | rfl <;> rcases hj' with rfl | rfl | rfl | rfl <;>
      first
      | omega
      | (cases d <;> first
          | (exfalso; simp at h4; done)
          | (simp [silent, silentAt, minerAt]; done)
          | (simp [silent, silentAt, minerAt, nxtQuiet] at hp hm))
  refine ⟨rfl, ?_, ?_, rfl, ?_, ?_, fun h => this (hend' h)⟩ <;>
    rcases hi' with rfl | rfl | rfl | rfl <;> rcases hj' with rfl | rfl | rfl | rfl <;>
    first
    | omega
    | (cases d <;> first
        | (exfalso; simp at h4; done)
        | simp [silent, silentAt, minerAt])

/- Such a request. -/
example : ∃ m w, SetupConnection.newJobNegotiation 2 2 ⟨1, by decide⟩ "0.0.0.0" 8545 "Bitmain" "S9i 13.5"
    "braiins-os-2018-09-22-1-hash" "some-uuid" = .ok m ∧ minerSend m = .ok w ∧ w.length ≤ 1024 :=
  ⟨_, _, rfl, rfl, by decide⟩

/-! ## Reads that get only a part -/

/-- `handle_recv_bytes` does not look at how many bytes `try_read` gave it: if the end of a frame has not arrived yet, it
reads zeros in its place, and the frame is as long as it should be. -/
theorem C80_cut (f : Message) (hl : f.payload.length ≤ 1018) (w : Bytes) (hw : serialize f = .ok w) (k : Nat)
    (h6 : 6 ≤ k) (hk : k ≤ w.length) :
    deserialize Message (tryRead freshBuffer (w.take k)) =
      .ok ⟨f.message_type, f.payload.take (k - 6) ++ List.replicate (w.length - k) 0⟩ := by
  have hf : f.payload.length < 2 ^ 24 := by omega
  rw [(C18_roundtrip f hf).1] at hw
  cases hw
  rw [wire_frame_length] at hk ⊢
  let g : Message := ⟨f.message_type, f.payload.take (k - 6) ++ List.replicate (6 + f.payload.length - k) 0⟩
  have hg : g.payload.length = f.payload.length := by
    show (f.payload.take (k - 6) ++ List.replicate (6 + f.payload.length - k) 0).length = _
    rw [List.length_append, List.length_take, List.length_replicate]
    omega
  have hh : frameHeader g = frameHeader f := by
    unfold frameHeader
    rw [hg]
  have key : tryRead freshBuffer ((Wire.frame f).take k) = Wire.frame g ++ List.replicate (1018 - f.payload.length) 0 := by
    rw [tryRead_fits _ (by rw [List.length_take]; omega), wire_frame, wire_frame, hh, List.length_take,
      List.length_append, frameHeader_length, List.take_append, frameHeader_length,
      List.take_of_length_le (by rw [frameHeader_length]; omega)]
    show _ = _ ++ (f.payload.take (k - 6) ++ List.replicate (6 + f.payload.length - k) 0) ++ _
    rw [List.append_assoc, List.append_assoc, List.append_assoc, List.replicate_append_replicate]
    congr 4
    omega
  rw [key]
  apply (C18_roundtrip g (by rw [hg]; exact hf)).2.1
  unfold IsSlice
  rw [List.length_append, wire_frame_length, List.length_replicate, hg]
  omega

theorem wire_success (v : UInt16) (b : UInt32) (hb : b &&& ~~~miningSuccessFlags = 0) :
    Wire.frame ⟨.setupConnectionSuccess, Wire.setupConnectionSuccess (⟨v, ⟨b, hb⟩⟩ : SetupConnectionSuccess _)⟩ =
      [0, 0, 1, 6, 0, 0, UInt8.ofNat (v.toNat % 256), UInt8.ofNat (v.toNat / 256)] ++ Wire.u32 b := by
  have h1 : Wire.hasChannel (Wire.msgNumber .setupConnectionSuccess) = false := by decide
  have h2 : (Wire.setupConnectionSuccess (⟨v, ⟨b, hb⟩⟩ : SetupConnectionSuccess miningSuccessFlags)).length = 6 := rfl
  unfold Wire.frame
  simp only [h1, h2]
  rfl

/-- The reply of twelve bytes, cut anywhere: with up to two bytes the miner ignores it, with three it panics, with four to
eight it prints that no flags are set, and only with nine or more what the pool sent. -/
theorem C80_reply_cut (minv : UInt16) (reply : Bytes)
    (hr : minerSend (⟨minv, ⟨1, by decide⟩⟩ : SetupConnectionSuccess miningSuccessFlags) = .ok reply) :
    reply.length = 12 ∧ ∀ k, minerHandle (tryRead freshBuffer (reply.take k)) =
      if k ≤ 2 then .ok none else if k = 3 then .panic else if k ≤ 8 then .ok (some ⟨0, by decide⟩)
      else .ok (some ⟨1, by decide⟩) := by
  have hs := minerSend_eq (lawful_setupSuccess.roundTrips (successReply minv) trivial).1
    (by rw [size_setupSuccess]; decide)
  have hr' := hs.symm.trans hr
  have hr : reply = Wire.frame ⟨.setupConnectionSuccess, Wire.setupConnectionSuccess (successReply minv)⟩ :=
    (Out.ok.inj hr').symm
  have hlist : reply = [0, 0, 1, 6, 0, 0, UInt8.ofNat (minv.toNat % 256), UInt8.ofNat (minv.toNat / 256), 1, 0, 0, 0] := by
    rw [hr]
    exact wire_success minv 1 (by decide)
  have good : ∀ m : SetupConnectionSuccess miningSuccessFlags, ∀ b,
      b = Wire.frame ⟨.setupConnectionSuccess, Wire.setupConnectionSuccess m⟩ →
      minerHandle (tryRead freshBuffer b) = .ok (some m.flags) := by
    intro m b hb
    have rts := lawful_setupSuccess.roundTrips m trivial
    obtain ⟨h3, h4⟩ := arrives rts (by rw [size_setupSuccess]; decide)
    rw [hb]
    unfold minerHandle
    erw [h3]
    simp only [unwrap_ok]
    show (unwrap (unframe (SetupConnectionSuccess miningSuccessFlags) _) >>= fun s => pure (some s.flags)) = _
    rw [h4]
    rfl
  have pad : ∀ (a : Bytes) (n : Nat), a.length + n ≤ 1024 →
      tryRead freshBuffer a = tryRead freshBuffer (a ++ List.replicate n 0) := by
    intro a n h
    rw [tryRead_fits a (by omega), tryRead_fits _ (by rw [List.length_append, List.length_replicate]; omega),
      List.append_assoc, List.replicate_append_replicate, List.length_append, List.length_replicate]
    congr 2
    omega
  refine ⟨by rw [hlist]; rfl, fun k => ?_⟩
  have hlow : (UInt16.ofNat (minv.toNat % 256)).toNat = minv.toNat % 256 := by
    rw [UInt16.toNat_ofNat']
    omega
  by_cases h12 : 12 ≤ k
  · rw [List.take_of_length_le (by rw [hlist]; exact h12), if_neg (by omega), if_neg (by omega), if_neg (by omega)]
    exact good (successReply minv) _ hr
  · have hk : k = 0 ∨ k = 1 ∨ k = 2 ∨ k = 3 ∨ k = 4 ∨ k = 5 ∨ k = 6 ∨ k = 7 ∨ k = 8 ∨ k = 9 ∨ k = 10 ∨ k = 11 := by
      omega
    rw [hlist]
    rcases hk with rfl | rfl | rfl | rfl | rfl | rfl | rfl | rfl | rfl | rfl | rfl | rfl
    · show minerHandle (tryRead freshBuffer []) = .ok none
      decide +kernel
    · show minerHandle (tryRead freshBuffer [0]) = .ok none
      decide +kernel
    · show minerHandle (tryRead freshBuffer [0, 0]) = .ok none
      decide +kernel
    · show minerHandle (tryRead freshBuffer [0, 0, 1]) = .panic
      decide +kernel
    · rw [pad _ 8 (by simp)]
      exact good ⟨0, ⟨0, by decide⟩⟩ _ (wire_success 0 0 (by decide)).symm
    · rw [pad _ 7 (by simp)]
      exact good ⟨0, ⟨0, by decide⟩⟩ _ (wire_success 0 0 (by decide)).symm
    · rw [pad _ 6 (by simp)]
      exact good ⟨0, ⟨0, by decide⟩⟩ _ (wire_success 0 0 (by decide)).symm
    · rw [pad _ 5 (by simp)]
      refine good ⟨UInt16.ofNat (minv.toNat % 256), ⟨0, by decide⟩⟩ _ ?_
      rw [wire_success, hlow, Nat.mod_mod, Nat.div_eq_of_lt (Nat.mod_lt _ (by decide))]
      rfl
    · rw [pad _ 4 (by simp)]
      exact good ⟨minv, ⟨0, by decide⟩⟩ _ (wire_success minv 0 (by decide)).symm
    · rw [pad _ 3 (by simp)]
      exact good ⟨minv, ⟨1, by decide⟩⟩ _ (wire_success minv 1 (by decide)).symm
    · rw [pad _ 2 (by simp)]
      exact good ⟨minv, ⟨1, by decide⟩⟩ _ (wire_success minv 1 (by decide)).symm
    · rw [pad _ 1 (by simp)]
      exact good ⟨minv, ⟨1, by decide⟩⟩ _ (wire_success minv 1 (by decide)).symm

example : ∃ reply, minerSend (⟨2, ⟨1, by decide⟩⟩ : SetupConnectionSuccess miningSuccessFlags) = .ok reply := ⟨_, rfl⟩

/-- The schedule of `C80_cut_unnoticed`: both listeners are bound in time, the pool reads 78 bytes and the miner 6. -/
def cutSchedule : List (Role × Nat) :=
  [(.pool, 0), (.miner, 0), (.miner, 0), (.miner, 0), (.pool, 0), (.pool, 77), (.pool, 0), (.pool, 0), (.miner, 0),
    (.miner, 5)]

/-- The whole program with the arguments of the example: the pool gets 78 of the 81 bytes of the request, takes them for a
valid request of another device, whose id ends in three zeros, and answers; the miner gets 6 of the 12 bytes of the
answer, and prints that no flags are set.  Both tasks return normally. -/
theorem C80_cut_unnoticed : ∃ m m' w f, exampleSetup = .ok m ∧
    SetupConnection.newMining 2 2 ⟨1, by decide⟩ "0.0.0.0" 8545 "Bitmain" "S9i 13.5" "braiins-os-2018-09-22-1-hash"
      "some-u\x00\x00\x00" = .ok m' ∧ minerSend m = .ok w ∧ w.length = 81 ∧
    deserialize Message (tryRead freshBuffer (w.take 78)) = .ok f ∧ unframe SetupConnection f = .ok m' ∧ m' ≠ m ∧
    (after m cutSchedule).miner.task = .finished (some ⟨0, by decide⟩) ∧
    (after m cutSchedule).pool.task = .finished ∧ (after m cutSchedule).pool.dead = false := by
  have key : (match exampleSetup, SetupConnection.newMining 2 2 ⟨1, by decide⟩ "0.0.0.0" 8545 "Bitmain" "S9i 13.5"
      "braiins-os-2018-09-22-1-hash" "some-u\x00\x00\x00" with
    | .ok m, .ok m' =>
      (match minerSend m with
      | .ok w => decide (w.length = 81) && (match deserialize Message (tryRead freshBuffer (w.take 78)) with
        | .ok f => decide (unframe SetupConnection f = .ok m')
        | _ => false)
      | _ => false) && decide (m' ≠ m) && (match (after m cutSchedule).miner.task with
        | .finished (some fl) => fl.bits == 0
        | _ => false) && decide ((after m cutSchedule).pool.task = .finished) && !(after m cutSchedule).pool.dead
    | _, _ => false) = true := by decide +kernel
  split at key
  · rename_i m m' hm hm'
    simp only [Bool.and_eq_true, decide_eq_true_eq, Bool.not_eq_true'] at key
    obtain ⟨⟨⟨⟨h1, h2⟩, h3⟩, h4⟩, h5⟩ := key
    split at h1
    · rename_i w hw
      simp only [Bool.and_eq_true, decide_eq_true_eq] at h1
      obtain ⟨hl, h1⟩ := h1
      split at h1
      · rename_i f hf
        refine ⟨m, m', w, f, hm, hm', hw, hl, hf, of_decide_eq_true h1, h2, ?_, h4, h5⟩
        split at h3
        · rename_i fl hfl
          rw [hfl]
          obtain ⟨b, hb⟩ := fl
          have : b = 0 := eq_of_beq h3
          subst this
          rfl
        · cases h3
      · cases h1
    · cases h1
  · cases key

end SV2
