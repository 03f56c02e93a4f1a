import Verif.Lemmas.Integrity
import Verif.Props.Secrecy
/-!
# C92 and C93: forgeries are rare, also with rekeying

The attack and the one-time keys are in `Verif/Spec/Integrity.lean`.
-/

namespace SV2.Noise

variable (P : Prims) (stream : Arr 32 → Arr 12 → Nat → UInt8)

/-! ## The one-time keys -/

/-- The one-time key of RFC 8439, 2.6: the first half of block 0. -/
def chachaOneTime : OneTime := fun x =>
  ⟨(Crypto.ChaCha20.block x.1 0 x.2).take 32, by
    rw [List.length_take, show (Crypto.ChaCha20.block x.1 0 x.2).length = 64 from Crypto.X25519.length_toLE _ _]; rfl⟩

/-- ChaCha20-Poly1305 is of this form. -/
theorem C92_rfc : Crypto.rfc = Crypto.rfc.withMac chachaByte chachaOneTime := by
  have h1 : Crypto.rfc.aeadSeal = (Crypto.rfc.withMac chachaByte chachaOneTime).aeadSeal := by
    funext k n ad m
    simp only [Prims.withMac, ← chacha_mask]
    rfl
  have h2 : Crypto.rfc.aeadOpen = (Crypto.rfc.withMac chachaByte chachaOneTime).aeadOpen := by
    funext k n ad c m
    simp only [Prims.withMac, ← chacha_mask]
    rfl
  have hext : ∀ p q : Prims, p.hash = q.hash → p.aeadSeal = q.aeadSeal → p.aeadOpen = q.aeadOpen → p.dh = q.dh →
      p.publicOf = q.publicOf → p = q := by
    intro p q; cases p; cases q; simp_all
  exact hext _ _ rfl h1 h2 rfl rfl

/-- There are finitely many choices of the one-time keys, so one can be made at random. -/
theorem C92_finite : Finite OneTime := inferInstance

/-! ## Poly1305 -/

/-- Of the `2^256` one-time keys of Poly1305, `2^128` give a message a certain tag, and at most `8 L 2^22` give each of two
different messages of at most `16 L` bytes a certain tag: after a message and its tag, no tag for another message is right
with more than `8 L / 2^106` of the keys that are left. -/
theorem C92_poly1305 (a b : Bytes) (s t : Arr 16) (L : Nat) :
    Nat.card (Arr 32) = 2 ^ 256 ∧
    Nat.card {key : Arr 32 // Crypto.Poly1305.mac a key.toList = s} = 2 ^ 128 ∧
    (a ≠ b → a.length ≤ 16 * L → b.length ≤ 16 * L →
      Nat.card {key : Arr 32 // Crypto.Poly1305.mac a key.toList = s ∧ Crypto.Poly1305.mac b key.toList = t} ≤
        8 * L * 2 ^ 22) := by
  refine ⟨Crypto.Poly1305.card_keys, Crypto.Poly1305.card_mac a s, fun h ha hb => ?_⟩
  exact Crypto.Poly1305.card_mac_two h L (by unfold Crypto.Poly1305.blocks; omega) (by unfold Crypto.Poly1305.blocks; omega)
    s t

/-- The modulus of Poly1305 is a prime number. -/
theorem C92_prime : Nat.Prime (2 ^ 130 - 5) := Crypto.Poly1305.prime_p

/-! ## Transport messages -/

/-- Two sessions after a handshake, and any attacker that sees everything, also the keys and counters of the sessions,
except the one-time keys; that has any messages sent, has the sides rekey at most `E` times each, where and in whatever
order it likes, and delivers at most `q` messages of its making.  If no key of the one direction is the key of the other,
at most `q` of `2^91` choices of the one-time keys let it succeed: for the others, what each side accepted is the
beginning of what the other side sent. -/
theorem C93_forging (i r : NoiseSession) (keys : Arr 32 × Arr 32) (n1 n2 : UInt64) (h : InSync i r keys n1 n2) (E : Nat)
    (hk : ∀ e ≤ E, streamKey stream keys.1 e ≠ keys.2) (forger : RForger) (hE : forger.Rekeys E) (q : Nat)
    (hq : forger.AtMost q) (rounds : Nat) :
    2 ^ 91 * Nat.card {oneTime : OneTime //
      ¬ (RNet.attacked (P.withMac stream oneTime) forger { net := { i := i, r := r } } rounds).1.net.Genuine} ≤
    q * Nat.card OneTime := by
  have := card_forged (P := P) (fun _ => hE) h hk (fun _ => hq) (fun _ _ _ _ => rfl) (G := fun _ => True)
    (fun _ _ _ _ => rfl) rounds
  simpa only [true_and, Nat.card_congr (Equiv.subtypeUnivEquiv fun (_ : OneTime) => trivial)] using this

/-- The keys meant there are those the sessions have after rekeying. -/
theorem C93_streamKey (oneTime : OneTime) (key : Arr 32) (e : Nat) :
    epochKey (P.withMac stream oneTime) key e = streamKey stream key e :=
  epochKey_stream (P := P) (mk := oneTime) rfl key e

/-- Without rekeying it is enough that the two directions have different keys. -/
theorem C92_forging (i r : NoiseSession) (keys : Arr 32 × Arr 32) (n1 n2 : UInt64) (h : InSync i r keys n1 n2)
    (hk : keys.1 ≠ keys.2) (forger : Forger) (q : Nat) (hq : forger.AtMost q) (rounds : Nat) :
    2 ^ 91 * Nat.card {oneTime : OneTime //
      ¬ (Net.attacked (P.withMac stream oneTime) forger { i := i, r := r } rounds).1.Genuine} ≤
    q * Nat.card OneTime := by
  let R : RForger := fun past => .net (forger (past.map (·.net)))
  have same : ∀ (Q : Prims) (j : Nat), (RNet.attacked Q R { net := { i := i, r := r } } j).1.net =
        (Net.attacked Q forger { i := i, r := r } j).1 ∧
      (RNet.attacked Q R { net := { i := i, r := r } } j).2.map (·.net) =
        (Net.attacked Q forger { i := i, r := r } j).2 := by
    intro Q j
    induction j with
    | zero => exact ⟨rfl, rfl⟩
    | succ j ih =>
      obtain ⟨h1, h2⟩ := ih
      refine ⟨?_, ?_⟩
      · show Net.step Q (RNet.attacked Q R _ j).1.net (forger (List.map RNet.net (_ :: _))) = _
        rw [List.map_cons, h1, h2]
        rfl
      · show List.map RNet.net (_ :: _) = _
        rw [List.map_cons, h1, h2]
        rfl
  have := C93_forging P stream i r keys n1 n2 h 0 (fun e he => by cases Nat.le_zero.mp he; exact hk) R
    (fun n past remote => ⟨fun _ => nofun, fun _ => nofun⟩) q
    (fun n past w hw => by
      have := hq n.net (past.map (·.net)) w hw
      exact ⟨fun e => this.1 (RAct.net.inj e), fun e => this.2 (RAct.net.inj e)⟩) rounds
  simpa only [(same _ rounds).1] using this

/-- Whoever knows the one-time keys needs one delivery: so some choice of the keys is always among those counted above, and
the keys have to be chosen after the attacker. -/
theorem C92_known (i r : NoiseSession) (keys : Arr 32 × Arr 32) (n1 n2 : UInt64) (h : InSync i r keys n1 n2)
    (hk : keys.1 ≠ EMPTY) (hn : n1 ≠ MAX_NONCE) (text : Bytes) (hl : text.length ≤ 65519) (oneTime : OneTime) :
    ∃ forger : Forger, forger.AtMost 1 ∧
      let n := (Net.attacked (P.withMac stream oneTime) forger { i := i, r := r } 1).1
      accepted n.gotR = [text] ∧ n.sentI = [] ∧ ¬ n.Genuine := by
  let c := mask (stream keys.1 (prepNonce n1)) text
  let w := c ++ (polyTag (oneTime (keys.1, prepNonce n1)) [] c).toList
  have hc : c.length = text.length := length_mask _ _
  have h16 := (polyTag (oneTime (keys.1, prepNonce n1)) [] c).len
  have hwl : w.length = text.length + 16 := by simp [w, hc, h16]
  let forger : Forger := fun past =>
    match past with
    | [n] => if n.gotR.length + n.gotI.length = 0 then .toR w else .iSend EMPTY []
    | _ => .iSend EMPTY []
  have hb : body w = c := body_append _ _
  have hrecv : r.recvMessage (P.withMac stream oneTime) w =
      (.ok (), { r with cs1 := ⟨keys.1, n1 + 1⟩, mc := r.mc + 1 }, text ++ tag w) := by
    have hcs : r.recvCs = ⟨keys.1, n1⟩ := by simp [NoiseSession.recvCs, h.roles.2, h.responder.1]
    have hm := h.count.2
    have b1 := n1.toNat_lt
    have b2 := n2.toNat_lt
    have ho : (P.withMac stream oneTime).aeadOpen r.recvCs.k (prepNonce r.recvCs.n) [] (body w)
        (CipherState.tagArr w (by omega)) = some text := by
      rw [hcs, hb]
      have ht : (CipherState.tagArr w (by omega) : Arr 16) = polyTag (oneTime (keys.1, prepNonce n1)) [] c := by
        apply arr_ext
        exact List.append_cancel_left ((by rw [← hb]; exact body_tag w) : c ++ tag w = w)
      simp only [Prims.withMac]
      rw [ht, if_pos rfl]
      exact congrArg some (mask_mask _ _)
    rw [NoiseSession.recv_transport r w (by omega) (by omega), CipherState.read_eq _ _ (by omega),
      CipherState.decrypt_some _ _ _ _ _ (by rw [hcs]; exact hn) (by rw [hcs]; exact hk) ho]
    simp only []
    rw [NoiseSession.count_ok _ _ (by simp; omega), setRecv_false h.roles.2, hcs]
  have e : (Net.attacked (P.withMac stream oneTime) forger { i := i, r := r } 1).1 =
      { i := i, r := { r with cs1 := ⟨keys.1, n1 + 1⟩, mc := r.mc + 1 },
        gotR := [(w, .ok (), text ++ tag w)] } := by
    show Net.step _ { i := i, r := r } (.toR w) = _
    simp only [Net.step, hrecv]
    rfl
  refine ⟨forger, ?_, ?_⟩
  · intro n past w' hq
    cases past with
    | nil =>
      have : forger [n] = .iSend EMPTY [] := by
        show (if n.gotR.length + n.gotI.length = 0 then _ else _) = _
        rw [if_neg (by omega)]
      rw [this]
      constructor <;> intro h <;> cases h
    | cons m past =>
      show Act.iSend EMPTY [] ≠ _ ∧ Act.iSend EMPTY [] ≠ _
      constructor <;> intro h <;> cases h
  · have ha : accepted [(w, (.ok () : NResult Unit), text ++ tag w)] = [text] := by
      have := (accepted_snoc_ok [] w (text ++ tag w)).1
      rw [List.nil_append] at this
      rw [this, plain_append (tag_length (by omega))]
      rfl
    rw [e]
    refine ⟨ha, rfl, fun hg => ?_⟩
    have := hg.toR
    simp only [ha] at this
    have := List.IsPrefix.length_le this
    simp at this

/-- The sessions of an honest handshake (C38) are such a pair. -/
example : ∃ keys, Agreed toyI toyR keys ∧ keys.1 ≠ keys.2 ∧ keys.1 ≠ EMPTY := 
  ⟨_, toy_inSync, by decide⟩

/-- Rekeying does not make the keys of the two directions the same there. -/
example : ∃ keys, Agreed toyI toyR keys ∧ ∀ e ≤ 1, streamKey chachaByte keys.1 e ≠ keys.2 := by
  refine ⟨_, toy_inSync, fun e he => ?_⟩
  rcases Nat.le_one_iff_eq_zero_or_eq_one.mp he with rfl | rfl
  · decide
  · decide +kernel

/-- An attacker that has a message sent, changes a byte of it, delivers that, and then the message itself. -/
def flipper : Forger := fun past =>
  match past with
  | [] => .iSend EMPTY []
  | n :: past =>
    if 2 ≤ n.gotR.length + n.gotI.length then .iSend EMPTY []
    else match past.length with
      | 0 => .iSend EMPTY ([1, 2, 3] ++ List.replicate 16 0)
      | 1 => .toR ((n.sentI.map fun x => x.2.set 0 0).headD [])
      | _ => .toR ((n.sentI.map (·.2)).headD [])

example : flipper.AtMost 2 := by
  intro n past w h
  have : flipper (n :: past) = .iSend EMPTY [] := if_pos h
  rw [this]
  constructor <;> intro h <;> cases h

example : let n := (Net.attacked (toyPrims.withMac (fun _ _ _ => 7) fun _ => Arr.replicate 32 5) flipper
      { i := toyI, r := toyR } 3).1
    n.gotR.map (·.2.1) = [.err .decryptionError, .ok ()] ∧ accepted n.gotR = [[1, 2, 3]] := by
  decide +kernel

end SV2.Noise
