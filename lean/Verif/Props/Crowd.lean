import Verif.Lemmas.Crowd
import Verif.Props.Impersonation
/-!
# C97: any number of sessions, and nobody can tell what they send

The sessions, the attacker and what it sees are in `Verif/Spec/Crowd.lean`.
-/

namespace SV2.Noise
open SV2.Stack

variable (P : Prims) (rest : Arr 32 → Arr 12 → Nat → UInt8)

/-! ## Two texts -/

/-- Any sessions, and any attacker that has them make calls and computes blocks: the block functions can be paired so that
with the one, where the first texts are sent, everything happens as with the other, where the second texts are sent -
apart from those where a text is encrypted with blocks that were used for something else. -/
theorem C97_worlds (sessions : Nat → NoiseSession) (onlooker : Onlooker) (rounds : Nat) :
    ∃ e : Blocks ≃ Blocks, ∀ blocks,
      let first := Crowd.play P rest blocks false onlooker rounds { sessions := sessions }
      let second := Crowd.play P rest (e blocks) true onlooker rounds { sessions := sessions }
      (first.Clean ↔ second.Clean) ∧ (first.Clean → first = second) := by
  have hc : Crowd.Clean { sessions := sessions } := ⟨List.nodup_nil, fun _ h => by cases h⟩
  have key := fun u : Unused => Crowd.pads P rest u onlooker rounds { sessions := sessions } hc
  choose e he using key
  refine ⟨Blocks.pads.trans (((Equiv.refl Unused).prodShear e).trans Blocks.pads.symm), fun blocks => ?_⟩
  have := he blocks.unused blocks.pad
  have h1 : blocks.unused.join blocks.pad = blocks := Blocks.pads.symm_apply_apply blocks
  rw [h1] at this
  exact this

/-- So no test of what it has seen comes out differently for more block functions than those where a text is encrypted
with blocks that were used for something else; and there are equally many of these with either text. -/
theorem C97_secret (sessions : Nat → NoiseSession) (onlooker : Onlooker) (rounds : Nat) (test : List Sight → Prop) :
    let end_ := fun second blocks => Crowd.play P rest blocks second onlooker rounds { sessions := sessions }
    let share := fun second => Nat.card {blocks : Blocks // test (end_ second blocks).seen}
    let unclean := fun second => Nat.card {blocks : Blocks // ¬ (end_ second blocks).Clean}
    share false ≤ share true + unclean true ∧ share true ≤ share false + unclean true ∧ unclean false = unclean true := by
  classical
  intro end_ share unclean
  obtain ⟨e, he⟩ := C97_worlds P rest sessions onlooker rounds
  have hu : unclean false = unclean true := Nat.card_congr (e.subtypeEquiv fun b => not_congr (he b).1)
  refine ⟨?_, ?_, hu⟩
  · show Nat.card {b : Blocks // test (end_ false b).seen} ≤ _ + Nat.card {b : Blocks // ¬ (end_ true b).Clean}
    rw [← Nat.card_sum]
    refine Nat.card_le_card_of_injective
      (fun b => if h : (end_ false b.1).Clean then .inl ⟨e b.1, by
        have : end_ false b.1 = end_ true (e b.1) := (he b.1).2 h
        rw [← this]; exact b.2⟩ else .inr ⟨e b.1, fun h' => h ((he b.1).1.mpr h')⟩) ?_
    intro a b hab
    simp only at hab
    by_cases ha : (end_ false a.1).Clean <;> by_cases hb : (end_ false b.1).Clean <;>
      simp only [ha, hb, dif_pos, dif_neg, not_false_iff] at hab
    · exact Subtype.ext (e.injective (congrArg (fun x => x.1) (Sum.inl.inj hab)))
    · cases hab
    · cases hab
    · exact Subtype.ext (e.injective (congrArg (fun x => x.1) (Sum.inr.inj hab)))
  · rw [← hu]
    show Nat.card {b : Blocks // test (end_ true b).seen} ≤ _ + Nat.card {b : Blocks // ¬ (end_ false b).Clean}
    rw [← Nat.card_sum]
    have hs : ∀ b, e (e.symm b) = b := e.apply_symm_apply
    refine Nat.card_le_card_of_injective
      (fun b => if h : (end_ false (e.symm b.1)).Clean then .inl ⟨e.symm b.1, by
        have : end_ false (e.symm b.1) = end_ true (e (e.symm b.1)) := (he (e.symm b.1)).2 h
        rw [this, hs]; exact b.2⟩ else .inr ⟨e.symm b.1, h⟩) ?_
    intro a b hab
    simp only at hab
    by_cases ha : (end_ false (e.symm a.1)).Clean <;> by_cases hb : (end_ false (e.symm b.1)).Clean <;>
      simp only [ha, hb, dif_pos, dif_neg, not_false_iff] at hab
    · exact Subtype.ext (e.symm.injective (congrArg (fun x => x.1) (Sum.inl.inj hab)))
    · cases hab
    · cases hab
    · exact Subtype.ext (e.symm.injective (congrArg (fun x => x.1) (Sum.inr.inj hab)))

/-- An attacker that never lets that happen sees nothing of the texts at all. -/
theorem C97_exact (sessions : Nat → NoiseSession) (onlooker : Onlooker) (rounds : Nat) (test : List Sight → Prop)
    (h : ∀ blocks, (Crowd.play P rest blocks true onlooker rounds { sessions := sessions }).Clean) :
    Nat.card {blocks : Blocks // test (Crowd.play P rest blocks false onlooker rounds { sessions := sessions }).seen} =
      Nat.card {blocks : Blocks // test (Crowd.play P rest blocks true onlooker rounds { sessions := sessions }).seen} := by
  obtain ⟨h1, h2, -⟩ := C97_secret P rest sessions onlooker rounds test
  have h0 : Nat.card {blocks : Blocks //
      ¬ (Crowd.play P rest blocks true onlooker rounds { sessions := sessions }).Clean} = 0 := by
    have : IsEmpty {blocks : Blocks //
        ¬ (Crowd.play P rest blocks true onlooker rounds { sessions := sessions }).Clean} := ⟨fun b => b.2 (h b.1)⟩
    exact Nat.card_of_isEmpty
  simp only [h0, Nat.add_zero] at h1 h2
  exact Nat.le_antisymm h1 h2

/-! ## One session does not use the same blocks twice -/

/-- What a call in transport mode does to the cipher state for sending. -/
theorem exec_sendCs (P Q : Prims) (s : NoiseSession) (op : Op) (hm : 2 ≤ s.mc) (h1 : op ≠ .clearLocal) (h2 : op ≠ .clearRemote) :
    let r := op.exec Q s
    2 ≤ r.2.1.mc ∧ s.sendCs.n.toNat ≤ r.2.1.sendCs.n.toNat ∧
      (r.1.isOk = true → op.secret P s = [] ∨
        op.secret P s = [(s.sendCs.k, NX.nonce s.sendCs.n.toNat)] ∧ s.sendCs.n.toNat < r.2.1.sendCs.n.toNat) := by
  cases op with
  | send secret b =>
    have hsec : Op.secret P s (.send secret b) = [(s.sendCs.k, NX.nonce s.sendCs.n.toNat)] := by
      show (if s.mc = 0 then [] else if s.mc = 1 then _ else if s.i then _ else _) = _
      rw [if_neg (show ¬ s.mc = 0 by omega), if_neg (show ¬ s.mc = 1 by omega)]
      unfold NoiseSession.sendCs
      cases s.i <;> rfl
    rcases NoiseSession.send_uniform (Keypair.default Q secret) s b.length hm with ⟨-, -, hn, h⟩ | ⟨e, h⟩
    · have he : Op.exec Q s (.send secret b) = _ := h Q b rfl
      rw [he]
      obtain ⟨-, k2, k3, -⟩ := NoiseSession.count_keeps (s.setSend ⟨s.sendCs.k, s.sendCs.n + 1⟩)
        (CipherState.sealed Q s.sendCs.k s.sendCs.n [] (body b))
      have hlt : s.sendCs.n.toNat < (s.sendCs.n + 1).toNat := by
        have : s.sendCs.n.toNat ≠ MAX_NONCE.toNat := fun h => hn (UInt64.toNat_inj.mp h)
        have h1 : MAX_NONCE.toNat = 2 ^ 64 - 1 := by decide
        have := s.sendCs.n.toNat_lt
        rw [UInt64.toNat_add]
        simp only [UInt64.reduceToNat]
        omega
      have hx : (s.setSend ⟨s.sendCs.k, s.sendCs.n + 1⟩).sendCs = ⟨s.sendCs.k, s.sendCs.n + 1⟩ := by
        unfold NoiseSession.setSend NoiseSession.sendCs
        cases s.i <;> rfl
      have hmc : (s.setSend ⟨s.sendCs.k, s.sendCs.n + 1⟩).mc = s.mc := by
        unfold NoiseSession.setSend
        split <;> rfl
      refine ⟨by omega, ?_, fun _ => .inr ⟨hsec, ?_⟩⟩
      · rw [k2, hx]; exact Nat.le_of_lt hlt
      · rw [k2, hx]; exact hlt
    · have he : Op.exec Q s (.send secret b) = _ := h Q b rfl
      rw [he]
      exact ⟨hm, Nat.le_refl _, fun h => by cases h⟩
  | recv b =>
    obtain ⟨-, k2, k3⟩ := NoiseSession.recv_keeps Q s b hm
    refine ⟨Nat.le_trans hm k3, ?_, fun _ => .inl rfl⟩
    show _ ≤ (s.recvMessage Q b).2.1.sendCs.n.toNat
    rw [k2]
  | setEphemeral kp => exact ⟨hm, Nat.le_refl _, fun _ => .inl rfl⟩
  | clearLocal => exact absurd rfl h1
  | clearRemote => exact absurd rfl h2
  | rekeyLocal =>
    refine ⟨hm, ?_, fun _ => .inl rfl⟩
    show _ ≤ (s.rekeyLocal Q).sendCs.n.toNat
    unfold NoiseSession.rekeyLocal NoiseSession.sendCs
    cases s.i <;> exact Nat.le_refl _
  | rekeyRemote =>
    refine ⟨hm, ?_, fun _ => .inl rfl⟩
    show _ ≤ (s.rekeyRemote Q).sendCs.n.toNat
    unfold NoiseSession.rekeyRemote NoiseSession.sendCs
    cases s.i <;> exact Nat.le_refl _

/-- All sessions are in transport mode, and the nonces of each are used up in order. -/
structure Crowd.Ordered (c : Crowd) : Prop where
  mc : ∀ j, 2 ≤ (c.sessions j).mc
  used : ∀ p ∈ c.sent, ∃ m < (c.sessions p.1).sendCs.n.toNat, p.2.2 = NX.nonce m
  apart : c.sent.Pairwise fun p q => p.1 = q.1 → p.2.2 ≠ q.2.2

theorem Crowd.Ordered.call {c : Crowd} (h : c.Ordered) (P Q : Prims) (who : Nat) (op : Op) (h1 : op ≠ .clearLocal)
    (h2 : op ≠ .clearRemote) : (c.call P Q who op).Ordered := by
  obtain ⟨a1, a2, a3⟩ := exec_sendCs P Q (c.sessions who) op (h.mc who) h1 h2
  have hses : ∀ j, (c.call P Q who op).sessions j = if j = who then (op.exec Q (c.sessions who)).2.1 else c.sessions j :=
    fun _ => rfl
  have hle : ∀ j, (c.sessions j).sendCs.n.toNat ≤ ((c.call P Q who op).sessions j).sendCs.n.toNat := by
    intro j
    rw [hses]
    split
    · next h => rw [h]; exact a2
    · exact Nat.le_refl _
  have hused : ∀ p ∈ c.sent, ∃ m < ((c.call P Q who op).sessions p.1).sendCs.n.toNat, p.2.2 = NX.nonce m := by
    intro p hp
    obtain ⟨m, hm, e⟩ := h.used p hp
    exact ⟨m, Nat.lt_of_lt_of_le hm (hle _), e⟩
  have hmc : ∀ j, 2 ≤ ((c.call P Q who op).sessions j).mc := by
    intro j
    rw [hses]
    split
    · exact a1
    · exact h.mc j
  by_cases hok : (op.exec Q (c.sessions who)).1.isOk = true
  · rcases a3 hok with hs | ⟨hs, hlt⟩
    · have hsent : (c.call P Q who op).sent = c.sent := by
        show c.sent ++ (if _ then _ else _) = _
        rw [if_pos hok, hs]
        exact List.append_nil _
      exact ⟨hmc, by rw [hsent]; exact hused, by rw [hsent]; exact h.apart⟩
    · have hsent : (c.call P Q who op).sent =
          c.sent ++ [(who, (c.sessions who).sendCs.k, NX.nonce (c.sessions who).sendCs.n.toNat)] := by
        show c.sent ++ (if _ then _ else _) = _
        rw [if_pos hok, hs]
        rfl
      refine ⟨hmc, ?_, ?_⟩
      · rw [hsent]
        intro p hp
        rcases List.mem_append.mp hp with hp | hp
        · exact hused p hp
        · obtain rfl := List.mem_singleton.mp hp
          refine ⟨_, ?_, rfl⟩
          rw [hses, if_pos rfl]
          exact hlt
      · rw [hsent, List.pairwise_append]
        refine ⟨h.apart, List.pairwise_singleton _ _, fun p hp q hq e e' => ?_⟩
        obtain rfl := List.mem_singleton.mp hq
        obtain ⟨m, hm, e2⟩ := h.used p hp
        have e : p.1 = who := e
        rw [e] at hm
        rw [e2] at e'
        have := (c.sessions who).sendCs.n.toNat_lt
        have := nonce_inj (by omega) (by omega) e'
        omega
  · have hsent : (c.call P Q who op).sent = c.sent := by
      show c.sent ++ (if _ then _ else _) = _
      rw [if_neg hok]
      exact List.append_nil _
    exact ⟨hmc, by rw [hsent]; exact hused, by rw [hsent]; exact h.apart⟩

/-- An attacker that leaves the sessions it has been given as they are, but for calls. -/
def Onlooker.Keeps (onlooker : Onlooker) : Prop :=
  ∀ seen, match onlooker seen with
    | .start .. => False
    | .call _ op => op ≠ .clearLocal ∧ op ≠ .clearRemote
    | _ => True

theorem Crowd.Ordered.play {onlooker : Onlooker} (hk : onlooker.Keeps) (blocks : Blocks) (second : Bool) (rounds : Nat) :
    ∀ {c : Crowd}, c.Ordered → (Crowd.play P rest blocks second onlooker rounds c).Ordered := by
  induction rounds with
  | zero => exact fun h => h
  | succ n ih =>
    intro c h
    refine ih ?_
    have := hk c.seen
    cases hq : onlooker c.seen with
    | start who s => rw [hq] at this; exact this.elim
    | call who op => rw [hq] at this; exact h.call P _ who op this.1 this.2
    | send who secret b0 b1 => exact h.call P _ who _ (fun h => by cases h) (fun h => by cases h)
    | block x => exact ⟨h.mc, h.used, h.apart⟩

/-- Sessions in transport mode, that are not replaced by others and not cleared: as long as different sessions send with
different keys, and nothing else is done with the blocks, no text is encrypted with blocks that were used before -
whatever the sessions send, receive and rekey, and also when a key comes back. -/
theorem C97_sessions (sessions : Nat → NoiseSession) (hm : ∀ j, 2 ≤ (sessions j).getMessageCount) (onlooker : Onlooker)
    (hk : onlooker.Keeps) (blocks : Blocks) (second : Bool) (rounds : Nat) :
    let c := Crowd.play P rest blocks second onlooker rounds { sessions := sessions }
    (∀ p ∈ c.sent, ∀ q ∈ c.sent, p.2.1 = q.2.1 → p.1 = q.1) → (∀ p ∈ c.sent, p.2 ∉ c.opened) → c.Clean := by
  intro c h1 h2
  have h : c.Ordered := Crowd.Ordered.play P rest hk blocks second rounds
    ⟨hm, fun _ h => (List.not_mem_nil h).elim, List.Pairwise.nil⟩
  refine ⟨?_, h2⟩
  rw [List.Nodup, List.pairwise_map]
  refine h.apart.imp_of_mem fun hp hq hne e => ?_
  exact hne (h1 _ hp _ hq (congrArg Prod.fst e)) (congrArg Prod.snd e)

/-- Two sessions in transport mode that send and rekey in turn. -/
def takingTurns : Onlooker := fun seen =>
  if seen.length % 3 = 2 then .call (seen.length % 2) .rekeyLocal
  else .send (seen.length % 2) EMPTY (List.replicate 21 1) (List.replicate 21 2)

example : takingTurns.Keeps := by
  intro seen
  by_cases h : seen.length % 3 = 2
  · simp [takingTurns, h]
  · simp [takingTurns, h]

example : let sessions := fun j => if j = 0 then toyI else toyR
    let c := Crowd.play toyPrims (fun _ _ _ => 7) toyBlocks true takingTurns 7 { sessions := sessions }
    2 ≤ toyI.getMessageCount ∧ 2 ≤ toyR.getMessageCount ∧ c.sent.length = 5 ∧
      (∀ p ∈ c.sent, ∀ q ∈ c.sent, p.2.1 = q.2.1 → p.1 = q.1) ∧ ∀ p ∈ c.sent, p.2 ∉ c.opened := by
  decide +kernel

/-- An attacker that has one session send one message after the other: with any block function no text is encrypted with
blocks that were used before, so that C97_exact holds for it. -/
example (blocks : Blocks) (rounds : Nat) :
    (Crowd.play P rest blocks true (fun _ => .send 0 EMPTY (List.replicate 21 1) (List.replicate 21 2)) rounds
      { sessions := fun _ => toyI }).Clean := by
  have key : ∀ (rounds : Nat) (c : Crowd), c.Ordered → (∀ p ∈ c.sent, p.1 = 0) → c.opened = [] →
      let d := Crowd.play P rest blocks true (fun _ => .send 0 EMPTY (List.replicate 21 1) (List.replicate 21 2)) rounds c
      (∀ p ∈ d.sent, p.1 = 0) ∧ d.opened = [] := by
    intro rounds
    induction rounds with
    | zero => exact fun c _ h1 h2 => ⟨h1, h2⟩
    | succ n ih =>
      intro c h h1 h2
      refine ih _ (h.call P _ 0 _ (fun h => by cases h) (fun h => by cases h)) ?_ ?_
      · intro p hp
        rcases List.mem_append.mp hp with hp | hp
        · exact h1 p hp
        · have key : ∀ (a : Bool) (l : List Row), (p ∈ if a = true then l.map fun x => (0, x) else []) → p.1 = 0 := by
            intro a l hp
            cases a
            · cases hp
            · obtain ⟨x, -, rfl⟩ := List.mem_map.mp hp
              rfl
          exact key _ _ hp
      · show c.opened ++ (if (c.sessions 0).mc = 1 then _ else []) = []
        rw [h2, if_neg (by have := h.mc 0; omega)]
        rfl
  obtain ⟨h1, h2⟩ := key rounds { sessions := fun _ => toyI }
    ⟨fun _ => by show 2 ≤ toyI.mc; decide, fun _ h => (List.not_mem_nil h).elim, List.Pairwise.nil⟩
    (fun _ h => (List.not_mem_nil h).elim) rfl
  refine C97_sessions P rest _ (fun _ => by show 2 ≤ toyI.mc; decide) _ (fun _ => trivial) blocks true rounds ?_ ?_
  · intro p hp q hq _
    rw [h1 p hp, h1 q hq]
  · rw [h2]
    exact fun _ _ => List.not_mem_nil

/-! ## Cases -/

/-- Two new sessions, and two in transport mode. -/
def four : Nat → NoiseSession
  | 0 => NoiseSession.initSession toyPrims true [1, 2] Keypair.empty
  | 1 => NoiseSession.initSession toyPrims false [1, 2] (Keypair.default toyPrims (Arr.replicate 32 5))
  | 2 => toyI
  | _ => toyR

/-- The bytes on the wire in the `n`th thing seen. -/
def wireOf (seen : List Sight) (n : Nat) : Bytes :=
  match seen[n]? with
  | some (.call _ wire _) => wire
  | _ => []

/-- It has the new sessions run a handshake with one of two payloads in it, and send; has the others send, with rekeying
between; and computes blocks with other keys. -/
def bystander : Onlooker := fun seen =>
  let text := fun x => List.replicate 5 x ++ List.replicate 16 0
  match seen.length with
  | 0 => .send 0 (Arr.replicate 32 3) (List.replicate 50 8) (List.replicate 50 9)
  | 1 => .call 1 (.recv (wireOf seen 0))
  | 2 => .send 1 (Arr.replicate 32 4) (List.replicate 100 1) (List.replicate 100 2)
  | 3 => .call 0 (.recv (wireOf seen 2))
  | 4 => .block (Arr.replicate 32 1, NX.nonce 0, 1)
  | 5 => .send 0 EMPTY (text 1) (text 2)
  | 6 => .send 1 EMPTY (text 1) (text 2)
  | 7 => .send 2 EMPTY (text 1) (text 2)
  | 8 => .call 2 .rekeyLocal
  | 9 => .send 2 EMPTY (text 1) (text 2)
  | 10 => .call 1 (.recv (wireOf seen 5))
  | _ => .send 3 EMPTY (text 1) (text 2)

/-- The handshake succeeds and the texts arrive; no text is encrypted with blocks that were used for something else; and
with one and the same block function the attacker does see different messages, but for the first one. -/
example : let c := fun second => Crowd.play toyPrims (fun _ _ _ => 7) toyBlocks second bystander 12 { sessions := four }
    (c false).Clean ∧ (c true).Clean ∧ (c true).sent.map (·.1) = [1, 0, 1, 2, 2, 3] ∧ (c true).opened.length = 4 ∧
    ((c false).sessions 0).getMessageCount = 3 ∧ ((c false).sessions 1).getMessageCount = 4 ∧
    wireOf (c false).seen 0 = wireOf (c true).seen 0 ∧
    ∀ n ∈ [2, 5, 6, 7, 9, 11], wireOf (c false).seen n ≠ wireOf (c true).seen n := by
  decide +kernel

/-- It computes the block with which the text was encrypted. -/
def informant : Onlooker := fun seen =>
  match seen with
  | [.call _ _ s] => .block (s.cs1.k, NX.nonce 0, 1)
  | _ => .send 2 EMPTY (List.replicate 5 1 ++ List.replicate 16 0) (List.replicate 5 2 ++ List.replicate 16 0)

/-- The text, from the message and the block. -/
def readOff (seen : List Sight) : Option UInt8 :=
  match seen with
  | [.call _ (x :: _) _, .block b] => some (x ^^^ b.toList.headD 0)
  | _ => none

/-- Then it can tell the texts apart: the condition is needed. -/
example : let c := fun second => Crowd.play toyPrims (fun _ _ _ => 7) toyBlocks second informant 2 { sessions := four }
    readOff (c false).seen = some 1 ∧ readOff (c true).seen = some 2 ∧ ¬ (c true).Clean := by
  decide +kernel

/-- A server that clears and rekeys its side in two connections: these have the same key, known to everyone, and encrypt
with the same blocks. -/
def cleared : Onlooker := fun seen =>
  match seen.length with
  | 0 => .call 2 .clearLocal
  | 1 => .call 2 .rekeyLocal
  | 2 => .send 2 EMPTY (List.replicate 21 1) (List.replicate 21 2)
  | 3 => .start 4 toyI
  | 4 => .call 4 .clearLocal
  | 5 => .call 4 .rekeyLocal
  | _ => .send 4 EMPTY (List.replicate 21 1) (List.replicate 21 2)

example : let c := Crowd.play toyPrims (fun _ _ _ => 7) toyBlocks true cleared 7 { sessions := four }
    c.sent.map (·.1) = [2, 4] ∧ ¬ c.Clean := by
  decide +kernel

end SV2.Noise
