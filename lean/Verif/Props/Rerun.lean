import Verif.Spec.Rerun
import Verif.Props.Renewed
/-!
# C111: a first message that is used again, for a server that changes its keys
-/

namespace SV2.Stack
open Noise Crypto SV2.Veil

variable (P : Prims) (rest : Arr 32 → Arr 12 → Nat → UInt8)

theorem SNet.step_withI_renewed (Q : Prims) (i : NoiseSession) (n : SNet) {act : SAct}
    (h : ∀ remote secret f room wire, act ≠ .rekeyI remote ∧ act ≠ .stack (.iSend secret f room) ∧ act ≠ .stack (.toI wire)) :
    (n.withI i).step Q act = (n.step Q act).withI i ∧ (n.step Q act).framesI = n.framesI := by
  cases act with
  | stack act =>
    refine SNet.step_withI Q i n fun secret f room wire => ?_
    have := h true secret f room wire
    exact ⟨fun e => this.2.1 (e ▸ rfl), fun e => this.2.2 (e ▸ rfl)⟩
  | rekeyI remote => exact absurd rfl (h remote EMPTY sampleFrame (Arr.replicate 16 0) []).1
  | rekeyR remote =>
    refine ⟨rfl, if_neg ?_⟩
    exact Nat.lt_irrefl _

theorem attacked_taken_renewed (i0 i : NoiseSession) (watcher : Watcher) (Q Q' : Prims) (blocks : Blocks)
    (hl : (watcher.forger Q rest blocks).Solitary) (start : SNet) (j : Nat) :
    SNet.attacked Q' ((taken i0 watcher).forger Q rest blocks) (start.withI i) j =
      ((SNet.attacked Q' (watcher.forger Q rest blocks) (start.withI i0) j).1.withI i,
        (SNet.attacked Q' (watcher.forger Q rest blocks) (start.withI i0) j).2.map (SNet.withI i)) ∧
    (∃ n : SNet, (SNet.attacked Q' (watcher.forger Q rest blocks) (start.withI i0) j).1 = n.withI i0) ∧
    (∀ n ∈ (SNet.attacked Q' (watcher.forger Q rest blocks) (start.withI i0) j).2, n = n.withI i0) ∧
    (SNet.attacked Q' (watcher.forger Q rest blocks) (start.withI i0) j).1.framesI = start.framesI := by
  induction j with
  | zero => exact ⟨rfl, ⟨start, rfl⟩, fun n hn => (List.not_mem_nil hn).elim, rfl⟩
  | succ j ih =>
    obtain ⟨e1, ⟨n, e2⟩, e3, e4⟩ := ih
    unfold SNet.attacked
    rw [e1]
    generalize SNet.attacked Q' (watcher.forger Q rest blocks) (start.withI i0) j = h at *
    have back : (h.1.withI i :: h.2.map (SNet.withI i)).map (SNet.withI i0) = h.1 :: h.2 := by
      rw [List.map_cons, List.map_map]
      congr 1
      · rw [e2]
        rfl
      · exact (List.map_congr_left (g := id) (fun n hn => (e3 n hn).symm)).trans (List.map_id _)
    have hact := hl (h.1 :: h.2)
    simp only [taken_forger, back]
    generalize watcher.forger Q rest blocks (h.1 :: h.2) = act at hact ⊢
    refine ⟨?_, ?_, ?_, ?_⟩
    · rw [(SNet.step_withI_renewed Q' i h.1 hact).1]
      rfl
    · rw [e2]
      exact ⟨_, (SNet.step_withI_renewed Q' i0 n hact).1⟩
    · intro n' hn'
      rcases List.mem_cons.mp hn' with rfl | hn'
      · rw [e2]
        rfl
      · exact e3 n' hn'
    · exact (SNet.step_withI_renewed Q' i h.1 hact).2.trans e4

theorem heard_taken_renewed (i0 i : NoiseSession) (watcher : Watcher) (Q : Prims) (blocks : Blocks)
    (hl : (watcher.forger Q rest blocks).Solitary) (start : SNet) (j : Nat) :
    (taken i0 watcher).heard Q rest blocks (start.withI i) j = watcher.heard Q rest blocks (start.withI i0) j := by
  induction j with
  | zero => rfl
  | succ j ih =>
    obtain ⟨e1, ⟨n, e2⟩, e3, -⟩ := attacked_taken_renewed rest i0 i watcher Q (Q.withBlocks rest blocks) blocks hl start j
    unfold Watcher.heard
    rw [ih, e1]
    generalize SNet.attacked (Q.withBlocks rest blocks) (watcher.forger Q rest blocks) (start.withI i0) j = h at *
    have back : (h.1.withI i :: h.2.map (SNet.withI i)).map (SNet.withI i0) = h.1 :: h.2 := by
      rw [List.map_cons, List.map_map]
      congr 1
      · rw [e2]
        rfl
      · exact (List.map_congr_left (g := id) (fun n hn => (e3 n hn).symm)).trans (List.map_id _)
    have : taken i0 watcher ((h.1.withI i :: h.2.map (SNet.withI i)).map SNet.seen) = watcher ((h.1 :: h.2).map SNet.seen) := by
      rw [← back]
      unfold taken
      rw [List.map_map, List.map_map]
      rfl
    simp only [this]

/-- Somebody gives a server a message with the public key of `eI` - it can be a copy of what a client sent before - and the
server answers.  The attacker - which may depend on all secrets, the server's static secret among them, and sees the answer -
then goes on alone with the server: for `rounds` steps it has the server send a frame or rekey, or delivers something to it,
after at most `m` hashes and blocks of ChaCha20 each time, with at most `q` deliveries and `E` changes of keys.  It does not see
the keys of the session.  For all but a share of `(q + 1) / 2^91`, `(rounds * m + E + 7)^2 / 2^247` and
`E * (rounds * m + E + 4) / 2^256` of the hash and block functions, the server accepts nothing - or the shared secret of the two
ephemeral keys was hashed by somebody, other than for keys.  (The server's message is not longer than what a client takes.) -/
theorem C111_replay (hD : DhLaws P) (far : Bytes → Arr 32) (M : Nat) (hM : 65567 ≤ M) (prologue : Bytes)
    (hp : prologue.length + 32 ≤ M) (i0 : NoiseSession) (first : Bytes) (eI : Arr 32) (hf : first.take 32 = (P.publicOf eI).toList)
    (sR eR : Arr 32) (buf2 : Bytes) (hl : buf2.length ≤ 2128)
    (watcher : Bytes → Watcher) (m : Nat) (hm : ∀ a past, (watcher a past).Within M m)
    (hb : ∀ a past, (watcher a past).Alone) (q E : Nat)
    (hq : ∀ a hash blocks, ((watcher a).forger (P.withHash hash) rest blocks).AtMost q)
    (hE : ∀ a hash blocks, ((watcher a).forger (P.withHash hash) rest blocks).Rekeys E)
    (hS : ∀ a hash blocks, ((watcher a).forger (P.withHash hash) rest blocks).Solitary) (rounds : Nat) :
    2 ^ 256 * Nat.card {x : Hashes M × Blocks //
      Replayed P rest x.2 far i0 prologue first eI sR eR buf2 watcher rounds x.1} ≤
      (2 ^ 165 * (q + 1) + 2 ^ 9 * (rounds * m + E + 7) ^ 2 + E * (rounds * m + E + 4)) * Nat.card (Hashes M × Blocks) := by
  have b := C111_intruder P rest hD far M hM prologue hp (Keypair.default P eI) eI first sR eR buf2
    (fun _ second => taken i0 (watcher second)) m (fun _ _ _ => hm _ _) (fun _ _ _ => hb _ _) q E
    (fun _ second hash blocks n past w h => by
      rw [taken_forger]
      exact hq second hash blocks (n.withI i0) (past.map (SNet.withI i0)) w h)
    (fun _ second hash blocks n past remote => by
      rw [taken_forger]
      exact hE second hash blocks (n.withI i0) (past.map (SNet.withI i0)) remote) rounds
  refine (Nat.mul_le_mul_left _ ?_).trans b
  refine Nat.card_le_card_of_injective (fun x => ⟨x.1, ?_⟩) fun a b h => Subtype.ext (congrArg (fun z => z.1) h)
  obtain ⟨⟨H, blocks⟩, a, hans, htold, d, hd, hok⟩ := x
  show Intruded P rest blocks far prologue (Keypair.default P eI) eI first sR eR buf2 _ rounds H
  unfold Intruded
  simp only at htold hd hans
  have hlaws : DhLaws ((P.withHash (H.at far)).withBlocks rest blocks) := ⟨hD.comm, hD.public_ok⟩
  have hA := withMac_correct (P.withHash (H.at far)) (blocks.stream rest) blocks.oneTime
  have hf : first.take 32 = ((P.withHash (H.at far)).publicOf eI).toList := hf
  have hone := hS a.second (H.at far) blocks
  generalize P.withHash (H.at far) = Q at *
  obtain ⟨ok, ha⟩ := (Serving.answer_iff (P := Q.withBlocks rest blocks) _ _).mp hans
  have hlen := ok.first
  have hbuf := ok.buf
  simp only at hlen hbuf
  have hal : a.second.length ≤ 2128 := by
    rw [ha]
    show (_ ++ _ ++ _ : Bytes).length ≤ 2128
    rw [List.length_append, List.length_append, Arr.len, Serving.encS_length, Serving.encP_length]
    simp only [body, List.length_take, List.length_drop]
    omega
  obtain ⟨⟨out, hrecv⟩, -⟩ := Serving.completes (P := Q.withBlocks rest blocks) (s := Keypair.default P eI) (eI := eI)
    (prologue := prologue) (first := first) (second := a.second) hlaws hA hans hf (by rw [ha]; rfl) (by rw [ha]; rfl) rfl hal
  have hsend := send_first (P := Q) true prologue (Keypair.default P eI) (Keypair.default Q eI) first (by omega) hlen.2
  have e : (Keypair.default Q eI).public_key.toList ++ first.drop 32 = first := by
    show (Q.publicOf eI).toList ++ first.drop 32 = first
    rw [← hf, List.take_append_drop]
  have e' : (Keypair.default Q eI).public_key.toList = first.take 32 := hf.symm
  rw [e, e'] at hsend
  refine ⟨_, first, hsend, a, hans, _, out, hrecv, ?_, fun g => ?_⟩
  · have := heard_taken_renewed rest i0 (done true (Q.publicOf sR) (NX.transcript Q (NX.parts prologue first a.second))
      (NX.transportKeys Q (Q.dh eI (keyIn a.second)) (Q.dh eI (Q.publicOf sR))) 1) (watcher a.second) Q blocks hone
      { rnet := { net := { i := i0, r := a.session } } } rounds
    intro hx
    refine htold ?_
    rcases List.mem_append.mp hx with hx | hx
    · exact List.mem_append_left _ hx
    · refine List.mem_append_right _ ?_
      exact this ▸ hx
  · obtain ⟨t1, -, -, t4⟩ := attacked_taken_renewed rest i0 (done true (Q.publicOf sR) (NX.transcript Q (NX.parts prologue first a.second))
      (NX.transportKeys Q (Q.dh eI (keyIn a.second)) (Q.dh eI (Q.publicOf sR))) 1) (watcher a.second) Q (Q.withBlocks rest blocks)
      blocks hone { rnet := { net := { i := i0, r := a.session } } } rounds
    have g : Stack.read (SNet.attacked (Q.withBlocks rest blocks) ((watcher a.second).forger Q rest blocks)
      { rnet := { net := { i := i0, r := a.session } } } rounds).1.rnet.net.gotR <+:
      (SNet.attacked (Q.withBlocks rest blocks) ((watcher a.second).forger Q rest blocks)
      { rnet := { net := { i := i0, r := a.session } } } rounds).1.framesI.map .ok := by
      have e := congrArg Prod.fst t1
      exact (congrArg (fun n : SNet => Stack.read n.rnet.net.gotR <+: n.framesI.map .ok) e) ▸ g.toR
    have t4 : (SNet.attacked (Q.withBlocks rest blocks) ((watcher a.second).forger Q rest blocks)
      { rnet := { net := { i := i0, r := a.session } } } rounds).1.framesI = [] := t4
    rw [t4, List.map_nil, List.prefix_nil] at g
    unfold Stack.read at g
    rw [List.map_eq_nil_iff, List.filter_eq_nil_iff] at g
    refine g d hd ?_
    rw [hok]
    rfl

/-! ## Cases -/

/-- An attacker that has the server send a frame, rekey, and send a frame again, sends it the two messages back, and then
something of its own. -/
def rerunner : Watcher := fun past =>
  match past with
  | [] => .reply (.stack (.rSend EMPTY sampleFrame (Arr.replicate 16 0)))
  | n :: _ =>
    if 3 ≤ n.rnet.net.gotR.length + n.rnet.net.gotI.length then .reply (.stack (.rSend EMPTY sampleFrame (Arr.replicate 16 0)))
    else match n.rnet.net.sentR.length, n.rnet.rekeysR with
      | 0, _ => .reply (.stack (.rSend EMPTY sampleFrame (Arr.replicate 16 0)))
      | 1, 0 => .block (Arr.replicate 32 2, NX.nonce 0, 0) fun _ => .reply (.rekeyR true)
      | 1, _ => .reply (.stack (.rSend EMPTY sampleFrame (Arr.replicate 16 0)))
      | _, _ => match n.rnet.net.gotR.length with
        | 0 => .reply (.stack (.toR ((n.rnet.net.sentR.map (·.2)).getD 0 [])))
        | 1 => .reply (.stack (.toR ((n.rnet.net.sentR.map (·.2)).getD 1 [])))
        | _ => .hash (List.replicate 96 1) fun y => .reply (.stack (.toR y.toList))

/-- What it does. -/
theorem rerunner_act (Q : Prims) (blocks : Blocks) (past : List SNet) :
    rerunner.forger Q rest blocks past = .stack (.rSend EMPTY sampleFrame (Arr.replicate 16 0)) ∨
    (rerunner.forger Q rest blocks past = .rekeyR true ∧ ∀ n past', past = n :: past' → n.rnet.rekeysR < 1) ∨
    (∃ w, rerunner.forger Q rest blocks past = .stack (.toR w)) ∧
      ∀ n past', past = n :: past' → n.rnet.net.gotR.length + n.rnet.net.gotI.length < 3 := by
  match past with
  | [] => exact .inl rfl
  | n :: past =>
    unfold Watcher.forger rerunner
    simp only [List.map_cons]
    split
    · exact .inl rfl
    · next h =>
      split
      · exact .inl rfl
      · next h2 =>
        refine .inr (.inl ⟨rfl, ?_⟩)
        rintro _ _ e
        cases e
        exact Nat.lt_of_le_of_lt (Nat.le_of_eq h2) Nat.zero_lt_one
      · exact .inl rfl
      · refine .inr (.inr ⟨?_, ?_⟩)
        · split <;> exact ⟨_, rfl⟩
        · rintro _ _ e
          cases e
          exact Nat.lt_of_not_le h

/-- It meets the hypotheses. -/
example : ∀ hash blocks, let f := rerunner.forger (toyPrims.withHash hash) (fun _ _ _ => 7) blocks
    f.AtMost 3 ∧ f.Rekeys 1 ∧ f.Solitary := by
  intro hash blocks f
  refine ⟨fun n past w h => ?_, fun n past remote => ?_, fun past remote secret g room wire => ?_⟩
  · rcases rerunner_act (fun _ _ _ => 7) (toyPrims.withHash hash) blocks (n :: past) with e | ⟨e, -⟩ | ⟨-, e⟩
    · simp only [f, e]
      constructor <;> intro h <;> cases h
    · simp only [f, e]
      constructor <;> intro h <;> cases h
    · exact absurd h (Nat.not_le.mpr (e n past rfl))
  · rcases rerunner_act (fun _ _ _ => 7) (toyPrims.withHash hash) blocks (n :: past) with e | ⟨e, e'⟩ | ⟨⟨w, e⟩, -⟩
    · simp only [f, e]
      constructor <;> intro _ h <;> cases h
    · simp only [f, e]
      refine ⟨fun _ h => (by cases h), fun h => absurd h (Nat.not_le.mpr (e' n past rfl))⟩
    · simp only [f, e]
      constructor <;> intro _ h <;> cases h
  · rcases rerunner_act (fun _ _ _ => 7) (toyPrims.withHash hash) blocks past with e | ⟨e, -⟩ | ⟨⟨w, e⟩, -⟩ <;> simp only [f, e] <;>
      refine ⟨fun h => ?_, fun h => ?_, fun h => ?_⟩ <;> cases h

example : ∀ past, (rerunner past).Within 65567 2 ∧ (rerunner past).Alone := by
  intro past
  match past with
  | [] => exact ⟨trivial, trivial⟩
  | n :: past =>
    unfold rerunner
    simp only []
    split
    · exact ⟨trivial, trivial⟩
    · split
      · exact ⟨trivial, trivial⟩
      · exact ⟨fun _ => trivial, fun _ => trivial⟩
      · exact ⟨trivial, trivial⟩
      · split
        · exact ⟨trivial, trivial⟩
        · exact ⟨trivial, trivial⟩
        · exact ⟨fun _ => trivial, fun _ => trivial⟩

/-- The server answers a first message that is used again, changes its keys, and refuses what is delivered afterwards. -/
example : let rest := fun _ _ _ => 7
    let m := firstOf (Arr.replicate 32 3)
    let Q := toyPrims.withBlocks rest toyBlocks
    let a := (Serving.mk [1, 2] (Arr.replicate 32 5) (Arr.replicate 32 6) m.2.2 (List.replicate 100 8)).answer Q
    let start : SNet := { rnet := { net := { i := toyR, r := (a.map (·.session)).getD toyR } } }
    let n := (SNet.attacked Q (rerunner.forger toyPrims rest toyBlocks) start 6).1
    m.2.2.take 32 = (toyPrims.publicOf (Arr.replicate 32 3)).toList ∧ a.isSome ∧ (List.replicate 100 (8 : UInt8)).length ≤ 2128 ∧
    n.rnet.net.gotR.map (·.2.1) = [.err .decryptionError, .err .decryptionError, .err .decryptionError] ∧ n.framesR.length = 2 ∧
    n.rnet.rekeysR = 1 ∧ n.rnet.net.r.cs1.k ≠ start.rnet.net.r.cs1.k ∧
    ∀ x ∈ NX.hashInputs toyPrims (NX.h0 toyPrims) (NX.parts [1, 2] m.2.2 ((a.map (·.second)).getD [])) ++
        rerunner.heard toyPrims rest toyBlocks start 6,
      x ≠ innerInput (NX.h0 toyPrims) (toyPrims.dh (Arr.replicate 32 3) (toyPrims.publicOf (Arr.replicate 32 6))) := by
  decide +kernel

end SV2.Stack
