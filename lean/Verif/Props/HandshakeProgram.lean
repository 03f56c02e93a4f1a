import Verif.Model.Programs
import Verif.Props.ExampleHandshake
/-!
# C81: the noise_handshake program under every schedule
-/

namespace SV2
open Law Noise Examples Examples.Handshake

namespace HandshakeRun
variable {P : Prims} {E : SigScheme}

/-! ## The handlers, call by call -/

theorem send_length {rnd : Keypair} {s s' : NoiseSession} {b b' : Bytes} (h : send P rnd s b = .ok (s', b')) :
    b'.length = b.length := by
  have hb := (NoiseSession.send_basic (P := P) rnd s b).len
  unfold send at h
  split at h
  · rename_i heq
    cases h
    rw [heq] at hb
    exact hb
  · cases h

theorem recv_length {s s' : NoiseSession} {b b' : Bytes} (h : recv P s b = .ok (s', b')) : b'.length = b.length := by
  have hb := (NoiseSession.recv_basic (P := P) s b).len
  unfold recv at h
  split at h
  · rename_i heq
    cases h
    rw [heq] at hb
    exact hb
  · cases h

theorem unwrap_bind_ok {ε α β : Type} {x : Out ε α} {f : α → Out Empty β} {b : β}
    (h : (unwrap x >>= f) = .ok b) : ∃ a, x = .ok a ∧ f a = .ok b := by
  cases x with
  | ok a => exact ⟨a, rfl, h⟩
  | err e => cases h
  | panic => cases h

/-- `Pool::handle_recv_bytes` is the calls of `poolNext` one after the other. -/
theorem pool_pieces {rnd : Keypair} {now1 now2 : SystemTime} {p p' : Pool E} {b w2 w3 : Bytes}
    (h : p.handle P rnd now1 now2 b = .ok (p', w2, w3)) : ∃ r1 b1 r2 buf r3,
      recv P p.noise_session b = .ok (r1, b1) ∧ send P rnd r1 b1 = .ok (r2, w2) ∧ p.certify now1 now2 = .ok buf ∧
      send P rnd r2 buf = .ok (r3, w3) ∧ p' = { p with noise_session := r3 } ∧ buf.length = 1024 := by
  unfold Pool.handle at h
  obtain ⟨⟨r1, b1⟩, e1, h⟩ := Out.bind_eq_ok h
  obtain ⟨⟨r2, o1⟩, e2, h⟩ := Out.bind_eq_ok h
  obtain ⟨vf, e3, h⟩ := unwrap_bind_ok h
  obtain ⟨va, e4, h⟩ := unwrap_bind_ok h
  obtain ⟨cert, e5, h⟩ := unwrap_bind_ok h
  obtain ⟨snm, e6, h⟩ := unwrap_bind_ok h
  obtain ⟨ser, e7, h⟩ := unwrap_bind_ok h
  obtain ⟨buf, e8, h⟩ := Out.bind_eq_ok h
  obtain ⟨⟨r3, o2⟩, e9, h⟩ := Out.bind_eq_ok h
  cases h
  refine ⟨r1, b1, r2, buf, r3, e1, e2, ?_, e9, rfl, ?_⟩
  · unfold Pool.certify
    simp only [e3, e4, e5, e6, e7, e8, unwrap, bind, Out.bind]
  · unfold intoBuffer at e8
    split at e8
    · cases e8
      rw [List.length_append, List.length_replicate]
      omega
    · cases e8

theorem listen_pieces {m m' : Miner} {b a1 a2 : Bytes} {t1 t2 : SystemTime} {v : Bool}
    (h : Miner.listen P E m b [(t1, a1), (t2, a2)] = ([v], .ok m')) (ht : m.noise_session.isTransport = false) :
    ∃ m1 c1 c2, m.handle P E t1 (tryRead b a1) = .ok (m1, c1, none) ∧
      m1.handle P E t2 (tryRead c1 a2) = .ok (m', c2, some v) := by
  simp only [Miner.listen] at h
  cases h1 : m.handle P E t1 (tryRead b a1) with
  | err e => rw [h1] at h; simp at h
  | panic => rw [h1] at h; simp at h
  | ok r =>
    obtain ⟨m1, c1, p1⟩ := r
    have hp1 : p1 = none := by
      unfold Miner.handle at h1
      rw [ht] at h1
      simp only [Bool.false_eq_true, if_false] at h1
      obtain ⟨⟨s, buf⟩, _, h1⟩ := Out.bind_eq_ok h1
      cases h1
      rfl
    subst hp1
    rw [h1] at h
    simp only at h
    cases h2 : m1.handle P E t2 (tryRead c1 a2) with
    | err e => rw [h2] at h; simp at h
    | panic => rw [h2] at h; simp at h
    | ok r =>
      obtain ⟨m2, c2, p2⟩ := r
      rw [h2] at h
      cases p2 with
      | none => simp at h
      | some u =>
        simp at h
        obtain ⟨rfl, rfl⟩ := h
        exact ⟨m1, c1, c2, rfl, h2⟩

/-! ## The states that schedules reach -/

/-- The results of the calls in an honest run. -/
structure Trace where
  i1 : NoiseSession
  w1 : Bytes
  r1 : NoiseSession
  b1 : Bytes
  r2 : NoiseSession
  w2 : Bytes
  buf : Bytes
  r3 : NoiseSession
  w3 : Bytes
  m1 : Miner
  c1 : Bytes
  m2 : Miner
  c2 : Bytes
  v : Bool

def poolAt (t : Trace) : Nat → PoolAt
  | 0 => .start
  | 1 => .bound
  | 2 => .reading
  | 3 => .received t.r1 t.b1
  | 4 => .connected1 t.r1 t.b1
  | 5 => .sent1 t.r2
  | 6 => .connected2 t.r2 t.buf
  | _ => .finished t.r3

def minerAt (text : String) (t : Trace) : Nat → MinerAt
  | 0 => .start
  | 1 => .sending
  | 2 => .sent ⟨text, t.i1⟩
  | 3 => .listening ⟨text, t.i1⟩ freshBuffer []
  | 4 => .reading ⟨text, t.i1⟩ freshBuffer []
  | 5 => .listening t.m1 t.c1 []
  | 6 => .reading t.m1 t.c1 []
  | _ => .listening t.m2 t.c2 [t.v]

/-- The program when the pool has made `i` calls and the miner `j`. -/
def state (text : String) (t : Trace) (i j : Nat) (d1 d2 : Bool) : World PoolAt MinerAt :=
  ⟨{ task := poolAt t i, dead := d1, bound := decide (1 ≤ i)
     inbox := if j = 0 then [] else if j = 1 then [⟨[], false⟩] else [⟨t.w1, true⟩]
     accepted := if i ≤ 1 then 0 else 1 },
   { task := minerAt text t j, dead := d2, bound := decide (3 ≤ j)
     inbox := if i ≤ 3 then [] else if i = 4 then [⟨[], false⟩] else if i = 5 then [⟨t.w2, true⟩]
       else if i = 6 then [⟨t.w2, true⟩, ⟨[], false⟩] else [⟨t.w2, true⟩, ⟨t.w3, true⟩]
     accepted := if j ≤ 3 then 0 else if j ≤ 5 then 1 else 2 }⟩

/-- Which of these states are reached. -/
def Ok (i j : Nat) (d1 d2 : Bool) : Prop :=
  i ≤ 7 ∧ j ≤ 7 ∧ (1 ≤ j → 1 ≤ i) ∧ (2 ≤ i → 1 ≤ j) ∧ (3 ≤ i → 2 ≤ j) ∧ (4 ≤ i → 3 ≤ j) ∧ (4 ≤ j → 4 ≤ i) ∧
    (5 ≤ j → 5 ≤ i) ∧ (6 ≤ j → 6 ≤ i) ∧ (7 ≤ j → 7 ≤ i) ∧ (d1 = true → i = 3 ∧ j ≤ 3) ∧ (d2 = true → i = 0 ∧ j = 0)

instance (i j : Nat) (d1 d2 : Bool) : Decidable (Ok i j d1 d2) := by unfold Ok; infer_instance

/-- The counters after a turn. -/
def nxt : Role → Nat → Nat → Bool → Bool → Nat × Nat × Bool × Bool
  | .pool, i, j, d1, d2 =>
    if d1 || d2 then (i, j, d1, d2)
    else match i with
      | 0 => (1, j, d1, d2)
      | 1 => if 1 ≤ j then (2, j, d1, d2) else (1, j, d1, d2)
      | 2 => if 2 ≤ j then (3, j, d1, d2) else (2, j, d1, d2)
      | 3 => if 3 ≤ j then (4, j, d1, d2) else (3, j, true, d2)
      | 4 => (5, j, d1, d2)
      | 5 => (6, j, d1, d2)
      | _ => (7, j, d1, d2)
  | .miner, i, j, d1, d2 =>
    if d2 then (i, j, d1, d2)
    else match j with
      | 0 => if 1 ≤ i then (i, 1, d1, d2) else (i, 0, d1, true)
      | 1 => (i, 2, d1, d2)
      | 2 => (i, 3, d1, d2)
      | 3 => if 4 ≤ i then (i, 4, d1, d2) else (i, 3, d1, d2)
      | 4 => if 5 ≤ i then (i, 5, d1, d2) else (i, 4, d1, d2)
      | 5 => if 6 ≤ i then (i, 6, d1, d2) else (i, 5, d1, d2)
      | 6 => if 7 ≤ i then (i, 7, d1, d2) else (i, 6, d1, d2)
      | _ => (i, 7, d1, d2)

theorem nxt_ok : ∀ i ≤ 7, ∀ j ≤ 7, ∀ d1 d2 who, Ok i j d1 d2 →
    Ok (nxt who i j d1 d2).1 (nxt who i j d1 d2).2.1 (nxt who i j d1 d2).2.2.1 (nxt who i j d1 d2).2.2.2 := by
  intro i hi j hj d1 d2 who
  have hi' : i = 0 ∨ i = 1 ∨ i = 2 ∨ i = 3 ∨ i = 4 ∨ i = 5 ∨ i = 6 ∨ i = 7 := by omega
  have hj' : j = 0 ∨ j = 1 ∨ j = 2 ∨ j = 3 ∨ j = 4 ∨ j = 5 ∨ j = 6 ∨ j = 7 := by omega
  cases who <;> rcases hi' with rfl | rfl | rfl | rfl | rfl | rfl | rfl | rfl <;>
    rcases hj' with rfl | rfl | rfl | rfl | rfl | rfl | rfl | rfl <;> cases d1 <;> cases d2 <;> decide

/-- What the calls of an honest run give. -/
structure Honest (P : Prims) (E : SigScheme) (rndP rndM : Keypair) (now1 now2 : SystemTime) (clock : Nat → SystemTime)
    (p : Pool E) (m : Miner) (t : Trace) : Prop where
  send0 : send P rndM m.noise_session freshBuffer = .ok (t.i1, t.w1)
  recv1 : recv P p.noise_session (tryRead freshBuffer t.w1) = .ok (t.r1, t.b1)
  send1 : send P rndP t.r1 t.b1 = .ok (t.r2, t.w2)
  cert : p.certify now1 now2 = .ok t.buf
  send2 : send P rndP t.r2 t.buf = .ok (t.r3, t.w3)
  hand1 : (⟨m.authority_public_key, t.i1⟩ : Miner).handle P E (clock 0) (tryRead freshBuffer t.w2) = .ok (t.m1, t.c1, none)
  hand2 : t.m1.handle P E (clock 0) (tryRead t.c1 t.w3) = .ok (t.m2, t.c2, some t.v)
  len1 : t.w1.length = 1024
  len2 : t.w2.length = 1024
  len3 : t.w3.length = 1024

variable {rndP rndM : Keypair} {now1 now2 : SystemTime} {clock : Nat → SystemTime} {p : Pool E} {m : Miner} {t : Trace}

/-- One turn. -/
theorem step_state (h : Honest P E rndP rndM now1 now2 clock p m t) (i j : Nat) (d1 d2 : Bool) (ho : Ok i j d1 d2)
    (who : Role) (n : Nat) (hn : 1023 ≤ n) :
    World.step (poolNext P rndP now1 now2 p) (minerNext P E rndM clock m) (state m.authority_public_key t i j d1 d2)
        (who, n) =
      state m.authority_public_key t (nxt who i j d1 d2).1 (nxt who i j d1 d2).2.1 (nxt who i j d1 d2).2.2.1
        (nxt who i j d1 d2).2.2.2 := by
  have ⟨hs0, hr1, hs1, hc, hs2, hh1, hh2, _, _, _⟩ := h
  have hl1 := h.len1
  have hl2 := h.len2
  have hl3 := h.len3
  clear h
  obtain ⟨hi, hj, h1, h2, h3, h4, h5, h6, h7, h8, h9, h10⟩ := ho
  have e1 : t.w1.take (n + 1) = t.w1 := List.take_of_length_le (by omega)
  have e2 : t.w2.take (n + 1) = t.w2 := List.take_of_length_le (by omega)
  have e3 : t.w3.take (n + 1) = t.w3 := List.take_of_length_le (by omega)
  have n1 : t.w1 ≠ [] := by intro h; have := congrArg List.length h; rw [hl1, List.length_nil] at this; omega
  have n2 : t.w2 ≠ [] := by intro h; have := congrArg List.length h; rw [hl2, List.length_nil] at this; omega
  have n3 : t.w3 ≠ [] := by intro h; have := congrArg List.length h; rw [hl3, List.length_nil] at this; omega
  have hi' : i = 0 ∨ i = 1 ∨ i = 2 ∨ i = 3 ∨ i = 4 ∨ i = 5 ∨ i = 6 ∨ i = 7 := by omega
  have hj' : j = 0 ∨ j = 1 ∨ j = 2 ∨ j = 3 ∨ j = 4 ∨ j = 5 ∨ j = 6 ∨ j = 7 := by omega
  rcases hi' with rfl | rfl | rfl | rfl | rfl | rfl | rfl | rfl <;>
    rcases hj' with rfl | rfl | rfl | rfl | rfl | rfl | rfl | rfl <;>
    first
    | omega
    | (cases d1 <;> cases d2 <;> first
        | (exfalso; simp at h9 h10; done)
        | (cases who <;>
            simp [World.step, World.ended, state, turn, nxt, poolAt, minerAt, poolNext, minerNext, Miner.written, finishLast, hs0, hr1,
              hs1, hc, hs2, hh1, hh2, e1, e2, e3, n1, n2, n3]))

/-- The counters after a schedule. -/
def nxts (schedule : List (Role × Nat)) (c : Nat × Nat × Bool × Bool) : Nat × Nat × Bool × Bool :=
  schedule.foldl (fun c t => nxt t.1 c.1 c.2.1 c.2.2.1 c.2.2.2) c

theorem nxts_ok (schedule : List (Role × Nat)) : ∀ c : Nat × Nat × Bool × Bool, Ok c.1 c.2.1 c.2.2.1 c.2.2.2 →
    Ok (nxts schedule c).1 (nxts schedule c).2.1 (nxts schedule c).2.2.1 (nxts schedule c).2.2.2 := by
  induction schedule with
  | nil => exact fun c h => h
  | cons t rest ih => exact fun c h => ih _ (nxt_ok _ h.1 _ h.2.1 _ _ t.1 h)

theorem run_nxts (h : Honest P E rndP rndM now1 now2 clock p m t) (schedule : List (Role × Nat))
    (hw : ∀ t ∈ schedule, 1023 ≤ t.2) : ∀ c : Nat × Nat × Bool × Bool, Ok c.1 c.2.1 c.2.2.1 c.2.2.2 →
      World.run (poolNext P rndP now1 now2 p) (minerNext P E rndM clock m)
          (state m.authority_public_key t c.1 c.2.1 c.2.2.1 c.2.2.2) schedule =
        state m.authority_public_key t (nxts schedule c).1 (nxts schedule c).2.1 (nxts schedule c).2.2.1
          (nxts schedule c).2.2.2 := by
  induction schedule with
  | nil => exact fun c _ => rfl
  | cons t rest ih =>
    intro c ho
    have hs := step_state h _ _ _ _ ho t.1 t.2 (hw t (List.mem_cons_self ..))
    have hn := nxt_ok _ ho.1 _ ho.2.1 _ _ t.1 ho
    have he := ih (fun t ht => hw t (List.mem_cons_of_mem _ ht)) _ hn
    rw [← hs] at he
    exact he

theorem after_nxts (h : Honest P E rndP rndM now1 now2 clock p m t) (schedule : List (Role × Nat))
    (hw : ∀ t ∈ schedule, 1023 ≤ t.2) :
    after P rndP rndM now1 now2 clock p m schedule = state m.authority_public_key t
      (nxts schedule (0, 0, false, false)).1 (nxts schedule (0, 0, false, false)).2.1
      (nxts schedule (0, 0, false, false)).2.2.1 (nxts schedule (0, 0, false, false)).2.2.2 :=
  run_nxts h schedule hw (0, 0, false, false) (by decide)

/-- Once both listeners are bound every turn of the pool counts until it is done, and every turn of the miner after
that. -/
theorem advance (schedule : List (Role × Nat)) : ∀ i j, Ok i j false false → 1 ≤ i → 3 ≤ j →
    ∃ i' j', nxts schedule (i, j, false, false) = (i', j', false, false) ∧ Ok i' j' false false ∧
      min 7 (i + schedule.countP (fun t => t.1 = .pool)) ≤ i' ∧ j ≤ j' ∧
      (7 ≤ i → min 7 (j + schedule.countP (fun t => t.1 = .miner)) ≤ j') := by
  induction schedule with
  | nil => exact fun i j ho _ _ => ⟨i, j, rfl, ho, by simp; omega, Nat.le_refl _, fun _ => by simp; omega⟩
  | cons t rest ih =>
    intro i j ho hi1 hj3
    have hn := nxt_ok i ho.1 j ho.2.1 false false t.1 ho
    obtain ⟨who, n⟩ := t
    have key : ∃ i1 j1, nxt who i j false false = (i1, j1, false, false) ∧ i ≤ i1 ∧ j ≤ j1 ∧
        (who = .pool → min 7 (i + 1) ≤ i1) ∧ (who = .miner → 7 ≤ i → min 7 (j + 1) ≤ j1) := by
      obtain ⟨hi, hj, h1, h2, h3, h4, h5, h6, h7, h8, -, -⟩ := ho
      have hi' : i = 1 ∨ i = 2 ∨ i = 3 ∨ i = 4 ∨ i = 5 ∨ i = 6 ∨ i = 7 := by omega
      have hj' : j = 3 ∨ j = 4 ∨ j = 5 ∨ j = 6 ∨ j = 7 := by omega
      cases who <;> rcases hi' with rfl | rfl | rfl | rfl | rfl | rfl | rfl <;>
        rcases hj' with rfl | rfl | rfl | rfl | rfl <;>
        first | omega | (refine ⟨_, _, rfl, ?_⟩; decide)
    obtain ⟨i1, j1, hnx, hii, hjj, hpi, hmj⟩ := key
    rw [hnx] at hn
    obtain ⟨i', j', he, ho', hc, hj', hcm⟩ := ih i1 j1 hn (by omega) (by omega)
    refine ⟨i', j', ?_, ho', ?_, by omega, fun h5 => ?_⟩
    · show nxts rest (nxt who i j false false) = _
      rw [hnx, he]
    · rw [List.countP_cons]
      cases who with
      | pool => have := hpi rfl; simp only [decide_true, if_true] at *; omega
      | miner => simp; omega
    · have := hcm (by omega)
      rw [List.countP_cons]
      cases who with
      | miner => have := hmj rfl h5; simp only [decide_true, if_true] at *; omega
      | pool => simp; omega

end HandshakeRun

open HandshakeRun

variable (P : Prims) (E : SigScheme)

/-- What C58 assumes of the primitives, the keys and the clocks. -/
structure ExampleOK (kp : E.KeyPair) (text : String) (eI eR sR : Arr 32) (now1 now2 clock : SystemTime) : Prop where
  aead : AeadCorrect P
  dh : DhLaws P
  sig : SigLaws E
  known : E.base58 text = some (E.publicOf kp).toList
  pos1 : 0 ≤ now1.nanos
  pos2 : 0 ≤ now2.nanos
  posClock : 0 ≤ clock.nanos
  window : now1.seconds % 2 ^ 32 < (now2.seconds + 5) % 2 ^ 32
  keys : (exampleRun P eI eR sR).KeysNonzero P
  transport : ((exampleRun P eI eR sR).keys P).2 ≠ NX.zeros

/-- The program with an honest pool and miner, after a schedule. -/
abbrev exampleAfter (kp : E.KeyPair) (text : String) (sI : Keypair) (eI eR sR : Arr 32) (now1 now2 : SystemTime)
    (clock : Nat → SystemTime) (schedule : List (Role × Nat)) : World PoolAt MinerAt :=
  after P (Keypair.default P eR) (Keypair.default P eI) now1 now2 clock (Pool.new (E := E) P kp sR) (Miner.new P sI text)
    schedule

theorem HandshakeRun.honest {P : Prims} {E : SigScheme} {kp : E.KeyPair} {text : String} {eI eR sR : Arr 32}
    {now1 now2 : SystemTime} {clock : Nat → SystemTime} (sI : Keypair)
    (h : ExampleOK P E kp text eI eR sR now1 now2 (clock 0)) :
    ∃ t, Honest P E (Keypair.default P eR) (Keypair.default P eI) now1 now2 clock (Pool.new (E := E) P kp sR)
        (Miner.new P sI text) t ∧
      t.v = decide ((clock 0).seconds % 2 ^ 32 < (now2.seconds + 5) % 2 ^ 32) ∧
      t.m2.noise_session.getRemoteStaticPublicKey = some (P.publicOf sR) ∧
      InSync t.m2.noise_session t.r3 ((exampleRun P eI eR sR).keys P) 0 1 := by
  obtain ⟨i1, w1, pool, w2, w3, m, h1, h2, h3, h4, h5⟩ := C58_honest P E h.aead h.dh h.sig kp text h.known sI eI eR sR now1
    now2 (clock 0) (clock 0) h.pos1 h.pos2 h.posClock h.window h.keys h.transport
  obtain ⟨r1, b1, r2, buf, r3, e1, e2, e3, e4, e5, hbuf⟩ := pool_pieces h2
  have hi1 : i1.isTransport = false := by
    have := (NoiseSession.send_basic (P := P) (Keypair.default P eI) (NoiseSession.initSession P true [] sI)
      freshBuffer).transport
    unfold send at h1
    split at h1
    · rename_i heq
      cases h1
      have heq : NoiseSession.sendMessage P (Keypair.default P eI) (NoiseSession.initSession P true [] sI) freshBuffer = _ := heq
      rw [heq] at this
      exact this
    · cases h1
  obtain ⟨m1, c1, c2, e6, e7⟩ := listen_pieces h3 hi1
  have hw1 : w1.length = 1024 := by rw [send_length h1, freshBuffer_length]
  have hb1 : b1.length = 1024 := by
    rw [recv_length e1]
    unfold tryRead
    rw [freshBuffer_length, List.take_of_length_le (by omega), List.length_append, List.length_drop, freshBuffer_length]
    omega
  refine ⟨⟨i1, w1, r1, b1, r2, w2, buf, r3, w3, m1, c1, m, c2, _⟩, ⟨h1, e1, e2, e3, e4, e6, e7, hw1, ?_, ?_⟩, rfl, h4, ?_⟩
  · show w2.length = 1024
    rw [send_length e2, hb1]
  · show w3.length = 1024
    rw [send_length e4, hbuf]
  · rw [e5] at h5
    exact h5

/-- An honest pool and miner under any interleaving of the two tasks in which reads get all that was written.  The miner
prints nothing or exactly one verdict, which is the one of C58, and once it has printed it, its session has the pool's
static key and is in step with the session of the pool, which has returned.  The miner panics only if it connected
before the pool had bound its listener, and the pool only if it wanted to answer before the miner had bound its own; no
other panic is possible. -/
theorem C81_outcomes (kp : E.KeyPair) (text : String) (sI : Keypair) (eI eR sR : Arr 32) (now1 now2 : SystemTime)
    (clock : Nat → SystemTime) (h : ExampleOK P E kp text eI eR sR now1 now2 (clock 0)) (schedule : List (Role × Nat))
    (hs : ∀ t ∈ schedule, 1023 ≤ t.2) :
    let s := exampleAfter P E kp text sI eI eR sR now1 now2 clock schedule
    (s.miner.task.printed = [] ∨
      s.miner.task.printed = [decide ((clock 0).seconds % 2 ^ 32 < (now2.seconds + 5) % 2 ^ 32)] ∧
      ∃ m buffer printed r, s.miner.task = .listening m buffer printed ∧ s.pool.task = .finished r ∧
        m.noise_session.getRemoteStaticPublicKey = some (P.publicOf sR) ∧
        InSync m.noise_session r ((exampleRun P eI eR sR).keys P) 0 1) ∧
    (s.miner.dead = true → s.pool.bound = false ∧ s.pool.inbox = []) ∧
    (s.pool.dead = true → s.miner.inbox = [] ∧ s.miner.accepted = 0 ∧ ∃ r b, s.pool.task = .received r b) ∧
    (s.pool.task = .panicking → False) ∧ (∀ printed, s.miner.task = .panicking printed → False) := by
  obtain ⟨t, ht, hv, hk, hsync⟩ := honest sI h
  intro s
  have he : s = _ := after_nxts ht schedule hs
  have ho := nxts_ok schedule (0, 0, false, false) (by decide)
  rw [he]
  generalize nxts schedule (0, 0, false, false) = c at ho
  obtain ⟨i, j, d1, d2⟩ := c
  obtain ⟨hi, hj, h1, h2, h3, h4, h5, h6, h7, h8, h9, h10⟩ := ho
  simp only at hi hj h1 h2 h3 h4 h5 h6 h7 h8 h9 h10 ⊢
  have hi' : i = 0 ∨ i = 1 ∨ i = 2 ∨ i = 3 ∨ i = 4 ∨ i = 5 ∨ i = 6 ∨ i = 7 := by omega
  have hj' : j = 0 ∨ j = 1 ∨ j = 2 ∨ j = 3 ∨ j = 4 ∨ j = 5 ∨ j = 6 ∨ j = 7 := by omega
  clear he s
  rcases hi' with rfl | rfl | rfl | rfl | rfl | rfl | rfl | rfl <;>
    rcases hj' with rfl | rfl | rfl | rfl | rfl | rfl | rfl | rfl <;>
    first
    | omega
    | (cases d1 <;> cases d2 <;> first
        | (exfalso; simp at h9 h10; done)
        | (simp [state, poolAt, minerAt, MinerAt.printed]; done)
        | (refine ⟨.inr ⟨congrArg (fun x => [x]) hv, _, _, _, _, rfl, rfl, hk, hsync⟩, ?_⟩
           simp [state, poolAt, minerAt]))

/-- When no turn changes anything any more, the miner has printed the verdict and waits for further connections; or the
miner has panicked for want of a listener; or the pool has, and the miner waits for a connection that nobody will make,
having printed nothing. -/
theorem C81_ends (kp : E.KeyPair) (text : String) (sI : Keypair) (eI eR sR : Arr 32) (now1 now2 : SystemTime)
    (clock : Nat → SystemTime) (h : ExampleOK P E kp text eI eR sR now1 now2 (clock 0)) (schedule : List (Role × Nat))
    (hs : ∀ t ∈ schedule, 1023 ≤ t.2)
    (hend : ∀ who, exampleAfter P E kp text sI eI eR sR now1 now2 clock (schedule ++ [(who, 1023)]) =
      exampleAfter P E kp text sI eI eR sR now1 now2 clock schedule) :
    let s := exampleAfter P E kp text sI eI eR sR now1 now2 clock schedule
    (s.miner.task.printed = [decide ((clock 0).seconds % 2 ^ 32 < (now2.seconds + 5) % 2 ^ 32)] ∧ s.miner.dead = false ∧
      s.pool.dead = false) ∨ s.miner.dead = true ∨
      (s.pool.dead = true ∧ s.miner.dead = false ∧ s.miner.task.printed = []) := by
  obtain ⟨t, ht, hv, -, -⟩ := honest sI h
  intro s
  have he : exampleAfter P E kp text sI eI eR sR now1 now2 clock schedule = _ := after_nxts ht schedule hs
  have he' : s = _ := he
  have ho := nxts_ok schedule (0, 0, false, false) (by decide)
  have hend' : ∀ who, World.step (poolNext P (Keypair.default P eR) now1 now2 (Pool.new (E := E) P kp sR))
      (minerNext P E (Keypair.default P eI) clock (Miner.new P sI text)) (exampleAfter P E kp text sI eI eR sR now1 now2 clock schedule) (who, 1023) =
      exampleAfter P E kp text sI eI eR sR now1 now2 clock schedule := by
    intro who
    have := hend who
    unfold exampleAfter Handshake.after World.run at this
    rw [List.foldl_append] at this
    exact this
  rw [he] at hend'
  rw [he']
  generalize nxts schedule (0, 0, false, false) = c at ho hend'
  obtain ⟨i, j, d1, d2⟩ := c
  have hp := hend' .pool
  have hm' := hend' .miner
  rw [step_state ht i j d1 d2 ho _ _ (by decide)] at hp hm'
  obtain ⟨hi, hj, h1, h2, h3, h4, h5, h6, h7, h8, h9, h10⟩ := ho
  simp only at hi hj h1 h2 h3 h4 h5 h6 h7 h8 h9 h10 ⊢
  have hi' : i = 0 ∨ i = 1 ∨ i = 2 ∨ i = 3 ∨ i = 4 ∨ i = 5 ∨ i = 6 ∨ i = 7 := by omega
  have hj' : j = 0 ∨ j = 1 ∨ j = 2 ∨ j = 3 ∨ j = 4 ∨ j = 5 ∨ j = 6 ∨ j = 7 := by omega
  clear hend hend' he he' s hs
  rcases hi' with rfl | rfl | rfl | rfl | rfl | rfl | rfl | rfl <;>
    rcases hj' with rfl | rfl | rfl | rfl | rfl | rfl | rfl | rfl <;>
    first
    | omega
    | (cases d1 <;> cases d2 <;> first
        | (exfalso; simp at h9 h10; done)
        | (simp [state, poolAt, minerAt, MinerAt.printed]; done)
        | (exact .inl ⟨congrArg (fun x => [x]) hv, rfl, rfl⟩)
        | (simp [state, poolAt, minerAt, nxt] at hp hm'; done))

/-- If each side binds its listener in time, the miner prints the verdict under every schedule that goes on for long
enough: the pool binds, then the miner connects, writes and binds; after that, in any order, six more turns of the pool
and, once these are over, four of the miner. -/
theorem C81_completes (kp : E.KeyPair) (text : String) (sI : Keypair) (eI eR sR : Arr 32) (now1 now2 : SystemTime)
    (clock : Nat → SystemTime) (h : ExampleOK P E kp text eI eR sR now1 now2 (clock 0)) (r1 r2 : List (Role × Nat))
    (hs : ∀ t ∈ r1 ++ r2, 1023 ≤ t.2) (h1 : 6 ≤ r1.countP (fun t => t.1 = .pool))
    (h2 : 4 ≤ r2.countP (fun t => t.1 = .miner)) :
    let s := exampleAfter P E kp text sI eI eR sR now1 now2 clock
      ([(.pool, 1023), (.miner, 1023), (.miner, 1023), (.miner, 1023)] ++ r1 ++ r2)
    s.miner.task.printed = [decide ((clock 0).seconds % 2 ^ 32 < (now2.seconds + 5) % 2 ^ 32)] ∧
      s.pool.dead = false ∧ s.miner.dead = false := by
  obtain ⟨t, ht, hv, -, -⟩ := honest sI h
  intro s
  obtain ⟨i, j, he, ho, hc, hj, -⟩ := advance r1 1 3 (by decide) (by decide) (by decide)
  obtain ⟨i', j', he', ho', hc', hj', hm'⟩ := advance r2 i j ho (by omega) hj
  have hi : i = 7 := by have := ho.1; omega
  have := hm' (by omega)
  have hj5 : j' = 7 := by have := ho'.2.1; omega
  have hi5 : i' = 7 := by have := ho'.1; omega
  have hmem : ∀ t ∈ [(.pool, 1023), (.miner, 1023), (.miner, 1023), (.miner, 1023)] ++ r1 ++ r2, 1023 ≤ t.2 := by
    intro t ht
    rw [List.append_assoc, List.mem_append] at ht
    rcases ht with ht | ht
    · simp at ht
      rcases ht with rfl | rfl <;> decide
    · exact hs t ht
  have hfin : s = _ := after_nxts ht _ hmem
  have hn : nxts ([(.pool, 1023), (.miner, 1023), (.miner, 1023), (.miner, 1023)] ++ r1 ++ r2) (0, 0, false, false) =
      (7, 7, false, false) := by
    unfold nxts at he he' ⊢
    rw [List.foldl_append, List.foldl_append]
    show List.foldl _ (List.foldl _ (1, 3, false, false) r1) r2 = _
    rw [he, he', hi5, hj5]
  rw [hfin, hn]
  exact ⟨congrArg (fun x => [x]) hv, rfl, rfl⟩

/-- Nothing but two seconds of sleep makes the sides wait for each other, so both failures happen: the miner's first turn
can come before the pool's, and the pool's answer before the miner listens.  Then the miner never prints anything,
however the schedule goes on. -/
theorem C81_races (kp : E.KeyPair) (text : String) (sI : Keypair) (eI eR sR : Arr 32) (now1 now2 : SystemTime)
    (clock : Nat → SystemTime) (h : ExampleOK P E kp text eI eR sR now1 now2 (clock 0)) (more : List (Role × Nat))
    (hs : ∀ t ∈ more, 1023 ≤ t.2) :
    (exampleAfter P E kp text sI eI eR sR now1 now2 clock ((.miner, 1023) :: more)).miner.dead = true ∧
    (let s := exampleAfter P E kp text sI eI eR sR now1 now2 clock
       ([(.pool, 1023), (.miner, 1023), (.miner, 1023), (.pool, 1023), (.pool, 1023), (.pool, 1023)] ++ more)
     s.pool.dead = true ∧ s.miner.dead = false ∧ s.miner.accepted = 0 ∧ s.miner.task.printed = []) := by
  obtain ⟨t, ht, -, -, -⟩ := honest sI h
  have fix1 : ∀ l : List (Role × Nat), nxts l (0, 0, false, true) = (0, 0, false, true) := by
    intro l
    induction l with
    | nil => rfl
    | cons t rest ih =>
      obtain ⟨who, n⟩ := t
      cases who <;> exact ih
  have fix2 : ∀ l : List (Role × Nat), ∀ j, j = 2 ∨ j = 3 → ∃ j', (j' = 2 ∨ j' = 3) ∧
      nxts l (3, j, true, false) = (3, j', true, false) := by
    intro l
    induction l with
    | nil => exact fun j hj => ⟨j, hj, rfl⟩
    | cons t rest ih =>
      obtain ⟨who, n⟩ := t
      intro j hj
      rcases hj with rfl | rfl <;> cases who
      · exact ih 2 (by decide)
      · exact ih 3 (by decide)
      · exact ih 3 (by decide)
      · exact ih 3 (by decide)
  constructor
  · have hfin := after_nxts ht ((.miner, 1023) :: more) (by
      intro t ht
      rcases List.mem_cons.mp ht with rfl | ht
      · decide
      · exact hs t ht)
    have hn : nxts ((.miner, 1023) :: more) (0, 0, false, false) = (0, 0, false, true) := fix1 more
    rw [hn] at hfin
    exact congrArg (fun s => s.miner.dead) hfin
  · intro s
    have hmem : ∀ t ∈ [(.pool, 1023), (.miner, 1023), (.miner, 1023), (.pool, 1023), (.pool, 1023), (.pool, 1023)] ++
        more, 1023 ≤ t.2 := by
      intro t ht
      rcases List.mem_append.mp ht with ht | ht
      · simp at ht
        rcases ht with rfl | rfl | rfl <;> decide
      · exact hs t ht
    have hfin : s = _ := after_nxts ht _ hmem
    obtain ⟨j, hj, hn⟩ := fix2 more 2 (by decide)
    have hn' : nxts ([(.pool, 1023), (.miner, 1023), (.miner, 1023), (.pool, 1023), (.pool, 1023), (.pool, 1023)] ++ more)
        (0, 0, false, false) = (3, j, true, false) := by
      rw [← hn]
      rfl
    rw [hfin, hn']
    rcases hj with rfl | rfl <;> exact ⟨rfl, rfl, rfl, rfl⟩

/-- Of the miner's first message only the first 32 bytes matter: the rest of it is zeros, and so is the pool's buffer, so
the pool takes the same step whatever part beyond them has arrived. -/
theorem C81_first_cut (rnd sI : Keypair) (text : String) (i1 : NoiseSession) (w1 : Bytes)
    (h : send P rnd (Miner.new P sI text).noise_session freshBuffer = .ok (i1, w1)) (k : Nat) (hk : 32 ≤ k) :
    w1.length = 1024 ∧ tryRead freshBuffer (w1.take k) = w1 := by
  have hfl := freshBuffer_length
  have hs := send_first (P := P) true [] sI rnd freshBuffer (by omega) (by omega)
  have h' : send P rnd (NoiseSession.initSession P true [] sI) freshBuffer = .ok (i1, w1) := h
  unfold send at h'
  rw [hs] at h'
  have hw : w1 = rnd.public_key.toList ++ freshBuffer.drop 32 := by
    exact (Prod.mk.inj (Out.ok.inj h')).2.symm
  have hl : w1.length = 1024 := by
    rw [hw, List.length_append, List.length_drop, hfl, rnd.public_key.len]
  refine ⟨hl, ?_⟩
  unfold tryRead
  have hz : ∀ n, w1.drop (32 + n) = freshBuffer.drop (32 + n) := by
    intro n
    rw [hw, List.drop_append, rnd.public_key.len, List.drop_of_length_le (by rw [rnd.public_key.len]; omega),
      List.nil_append, List.drop_drop, show 32 + (32 + n - 32) = 32 + n from by omega]
  have hm : (w1.take k).take freshBuffer.length = w1.take k :=
    List.take_of_length_le (by rw [List.length_take]; omega)
  rw [hm]
  by_cases h2 : k ≤ 1024
  · have : freshBuffer.drop (w1.take k).length = w1.drop k := by
      rw [List.length_take, hl, Nat.min_eq_left h2]
      have := hz (k - 32)
      rw [show 32 + (k - 32) = k from by omega] at this
      exact this.symm
    rw [this, List.take_append_drop]
  · rw [List.take_of_length_le (by omega), List.drop_of_length_le (by omega), List.append_nil]

/-- The toy primitives and keys meet `ExampleOK`: the pool answers at second 1000 and the miner checks at second 1003. -/
example : ExampleOK toyPrims toyScheme (Arr.replicate 32 7) "key" (Arr.replicate 32 3) (Arr.replicate 32 4)
    (Arr.replicate 32 5) ⟨1000 * 1000000000⟩ ⟨1000 * 1000000000⟩ ⟨1003 * 1000000000⟩ :=
  ⟨toy_correct, toy_dh, toyScheme_laws, by decide, by decide, by decide, by decide, by decide, toy_keysNonzero _,
    toy_hkdf_ne_zeros _ _⟩

end SV2
