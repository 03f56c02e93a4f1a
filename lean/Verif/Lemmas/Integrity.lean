import Verif.Spec.Integrity
import Verif.Lemmas.Rows
import Verif.Lemmas.Crypto.Poly1305
import Verif.Lemmas.Noise.Rekey
import Verif.Lemmas.Secrecy
/-!
# Forgeries

Beside the run of the two sessions, one where a message is accepted exactly if it was sent.  The two differ at the first
forgery only, and the second run depends on a one-time key through the tag of the one message that was sent under it.
-/

namespace SV2.Noise

variable (P : Prims) (stream : Arr 32 → Arr 12 → Nat → UInt8)

theorem mask_mask (f : Nat → UInt8) (m : Bytes) : mask f (mask f m) = m := by
  apply List.ext_getElem (by simp [mask])
  intro i h1 h2
  simp [mask, UInt8.xor_assoc]

theorem withMac_correct (mk : OneTime) : AeadCorrect (P.withMac stream mk) := by
  intro k n ad m
  simp [Prims.withMac, mask_mask]

theorem nonce_inj {a b : Nat} (ha : a < 2 ^ 64) (hb : b < 2 ^ 64) (h : NX.nonce a = NX.nonce b) : a = b := by
  have e : ∀ c, c < 2 ^ 64 → prepNonce (UInt64.ofNat c) = NX.nonce c := by
    intro c hc
    rw [prepNonce_eq, UInt64.toNat_ofNat', Nat.mod_eq_of_lt hc]
  rw [← e a ha, ← e b hb] at h
  have h' := congrArg Arr.toList h
  simp only [prepNonce, List.append_cancel_left_eq, UInt64.toNat_ofNat', Nat.mod_eq_of_lt ha, Nat.mod_eq_of_lt hb] at h'
  have := congrArg fromLE h'
  rwa [fromLE_toLE 8 _ (lt_of_lt_of_eq ha (by decide)), fromLE_toLE 8 _ (lt_of_lt_of_eq hb (by decide))] at this

/-! ## The input of Poly1305 -/

/-- What is authenticated of a ciphertext, without associated data. -/
def macInput (c : Bytes) : Bytes :=
  [] ++ Crypto.Aead.pad16 [] ++ c ++ Crypto.Aead.pad16 c ++ toLE 8 (List.length ([] : Bytes)) ++ toLE 8 c.length

theorem polyTag_nil (key : Arr 32) (c : Bytes) : polyTag key [] c = Crypto.Poly1305.mac (macInput c) key.toList := rfl

theorem macInput_eq (c : Bytes) : macInput c = c ++ Crypto.Aead.pad16 c ++ toLE 8 0 ++ toLE 8 c.length := by
  simp [macInput, Crypto.Aead.pad16]

theorem macInput_inj {a b : Bytes} (ha : a.length < 2 ^ 64) (hb : b.length < 2 ^ 64) (h : macInput a = macInput b) :
    a = b := by
  rw [macInput_eq, macInput_eq] at h
  obtain ⟨h1, h2⟩ := List.append_inj' h (by rw [toLE_length, toLE_length])
  have hl := congrArg fromLE h2
  rw [fromLE_toLE 8 _ (lt_of_lt_of_eq ha (by decide)), fromLE_toLE 8 _ (lt_of_lt_of_eq hb (by decide))] at hl
  simp only [List.append_assoc] at h1
  exact (List.append_inj h1 hl).1

theorem blocks_macInput {c : Bytes} (h : c.length ≤ 65519) : Crypto.Poly1305.blocks (macInput c) ≤ 4096 := by
  have : (macInput c).length = c.length + (16 - c.length % 16) % 16 + 16 := by
    rw [macInput_eq]
    simp only [List.length_append, toLE_length, Crypto.Aead.pad16, List.length_replicate]
  unfold Crypto.Poly1305.blocks
  omega

/-! ## A receive depends on one call of the AEAD -/

theorem NoiseSession.recv_congr (s : NoiseSession) (b : Bytes) (hm : 2 ≤ s.mc) (P Q : Prims)
    (h : ∀ hl : 16 ≤ b.length, b.length ≤ 65535 →
      P.aeadOpen s.recvCs.k (prepNonce s.recvCs.n) [] (body b) (CipherState.tagArr b hl) =
        Q.aeadOpen s.recvCs.k (prepNonce s.recvCs.n) [] (body b) (CipherState.tagArr b hl)) :
    s.recvMessage P b = s.recvMessage Q b := by
  by_cases hl : b.length < 16 ∨ 65535 < b.length
  · rw [recv_badLength s b hl, recv_badLength s b hl]
  rw [recv_transport s b hl hm, recv_transport s b hl hm, CipherState.read_eq _ _ (by omega),
    CipherState.read_eq _ _ (by omega)]
  by_cases hn : s.recvCs.n = MAX_NONCE
  · simp [CipherState.decrypt_exhausted _ _ _ _ hn]
  by_cases hk : s.recvCs.k = EMPTY
  · simp [CipherState.decrypt_noKey _ _ _ _ hn hk]
  have hh := h (by omega) (by omega)
  rcases hp : P.aeadOpen s.recvCs.k (prepNonce s.recvCs.n) [] (body b) (CipherState.tagArr b (by omega)) with _ | p
  · rw [hp] at hh
    simp [CipherState.decrypt_none _ _ _ _ hn hk hp, CipherState.decrypt_none _ _ _ _ hn hk hh.symm]
  · rw [hp] at hh
    simp only [CipherState.decrypt_some _ _ _ _ _ hn hk hp, CipherState.decrypt_some _ _ _ _ _ hn hk hh.symm]

theorem NoiseSession.send_congr (rnd : Keypair) (s : NoiseSession) (b : Bytes) (hm : 2 ≤ s.mc) (P Q : Prims)
    (h : 16 ≤ b.length → b.length ≤ 65535 → s.sendCs.n ≠ MAX_NONCE → s.sendCs.k ≠ EMPTY →
      CipherState.sealed P s.sendCs.k s.sendCs.n [] (body b) = CipherState.sealed Q s.sendCs.k s.sendCs.n [] (body b)) :
    s.sendMessage P rnd b = s.sendMessage Q rnd b := by
  by_cases hl : b.length < 16 ∨ 65535 < b.length
  · rw [send_badLength rnd s b hl, send_badLength rnd s b hl]
  rw [send_transport rnd s b hl hm, send_transport rnd s b hl hm]
  by_cases hn : s.sendCs.n = MAX_NONCE
  · rw [CipherState.write_exhausted _ _ (by omega) hn, CipherState.write_exhausted _ _ (by omega) hn]
  by_cases hk : s.sendCs.k = EMPTY
  · rw [CipherState.write_noKey _ _ (by omega) hn hk, CipherState.write_noKey _ _ (by omega) hn hk]
  rw [CipherState.write_ok _ _ (by omega) hn hk, CipherState.write_ok _ _ (by omega) hn hk,
    h (by omega) (by omega) hn hk]

/-! ## The run without forgeries -/

/-- The responder sent a message under this key and nonce. -/
def IssuedIn (key : Arr 32) (n0 : Nat) (sent : List (Bytes × Bytes)) (row : Arr 32 × Arr 12) (w : Bytes) : Prop :=
  ∃ j p, sent[j]? = some (p, w) ∧ row = (key, NX.nonce (n0 + j))

/-- The initiator sent a message under this key and nonce. -/
def IssuedAt (stream : Arr 32 → Arr 12 → Nat → UInt8) (key : Arr 32) (n0 : Nat) (sent : List (Bytes × Bytes))
    (sentAt : List Nat) (row : Arr 32 × Arr 12) (w : Bytes) : Prop :=
  ∃ j p e, sent[j]? = some (p, w) ∧ sentAt[j]? = some e ∧ row = (streamKey stream key e, NX.nonce (n0 + j))

def RNet.Issued (stream : Arr 32 → Arr 12 → Nat → UInt8) (keys : Arr 32 × Arr 32) (n1 n2 : Nat) (n : RNet)
    (row : Arr 32 × Arr 12) (w : Bytes) : Prop :=
  IssuedAt stream keys.1 n1 n.net.sentI n.sentAt row w ∨ IssuedIn keys.2 n2 n.net.sentR row w

open Classical in
/-- Decryption of what was sent, and of nothing else. -/
noncomputable def Prims.ideal (mk : OneTime) (issued : Arr 32 × Arr 12 → Bytes → Prop) : Prims :=
  { P.withMac stream mk with
    aeadOpen := fun k n _ c mac => if issued (k, n) (c ++ mac.toList) then some (mask (stream k n) c) else none
    open_length := fun k n ad c mac p h => by
      split at h
      · cases h; exact length_mask _ _
      · cases h }

variable (keys : Arr 32 × Arr 32) (n1 n2 : Nat)

noncomputable def RNet.idealStep (mk : OneTime) (n : RNet) (act : RAct) : RNet :=
  n.step (P.ideal stream mk (n.Issued stream keys n1 n2)) act

noncomputable def RNet.idealRun (mk : OneTime) (forger : RForger) (start : RNet) : Nat → RNet × List RNet
  | 0 => (start, [])
  | j + 1 =>
    let h := RNet.idealRun mk forger start j
    (h.1.idealStep P stream keys n1 n2 mk (forger (h.1 :: h.2)), h.1 :: h.2)

/-! ### Keys -/

/-- The keys depend on the key stream only. -/
theorem epochKey_stream {P Q : Prims} {stream : Arr 32 → Arr 12 → Nat → UInt8} {mk : OneTime}
    (h : Q.aeadSeal = (P.withMac stream mk).aeadSeal) (key : Arr 32) (e : Nat) :
    epochKey Q key e = streamKey stream key e := by
  induction e with
  | zero => rfl
  | succ e ih =>
    apply arr_ext
    show (Q.aeadSeal (epochKey Q key e) _ _ _).1 = _
    rw [h, ih]
    rfl

theorem epochKey_congr {P Q : Prims} (h : P.aeadSeal = Q.aeadSeal) (key : Arr 32) (e : Nat) :
    epochKey P key e = epochKey Q key e := by
  induction e with
  | zero => rfl
  | succ e ih =>
    apply arr_ext
    show (P.aeadSeal (epochKey P key e) _ _ _).1 = (Q.aeadSeal (epochKey Q key e) _ _ _).1
    rw [h, ih]

/-! ### What was sent stays sent -/

theorem RNet.step_sent (Q : Prims) (n : RNet) (act : RAct) :
    n.net.sentI <+: (n.step Q act).net.sentI ∧ n.sentAt <+: (n.step Q act).sentAt ∧
      n.net.sentR <+: (n.step Q act).net.sentR := by
  cases act with
  | rekeyI remote => exact ⟨List.prefix_refl _, List.prefix_refl _, List.prefix_refl _⟩
  | rekeyR remote => exact ⟨List.prefix_refl _, List.prefix_refl _, List.prefix_refl _⟩
  | net act =>
    refine ⟨(n.net.step_logs act).1, List.prefix_append _ _, ?_⟩
    cases act <;> simp only [RNet.step, Net.step]
    · exact List.prefix_refl _
    · split
      · exact List.prefix_append _ _
      · exact List.prefix_refl _
    · exact List.prefix_refl _
    · exact List.prefix_refl _

theorem prefix_get {α : Type} {l l' : List α} (h : l <+: l') {j : Nat} {x : α} (hj : l[j]? = some x) : l'[j]? = some x := by
  obtain ⟨t, rfl⟩ := h
  rw [List.getElem?_append_left (List.getElem?_eq_some_iff.mp hj).1]; exact hj

theorem RNet.Issued.step {stream : Arr 32 → Arr 12 → Nat → UInt8} {keys : Arr 32 × Arr 32} {n1 n2 : Nat} {n : RNet}
    {row : Arr 32 × Arr 12} {w : Bytes} (h : n.Issued stream keys n1 n2 row w) (Q : Prims) (act : RAct) :
    (n.step Q act).Issued stream keys n1 n2 row w := by
  obtain ⟨g1, g2, g3⟩ := n.step_sent Q act
  rcases h with ⟨j, p, e, h1, h2, h3⟩ | ⟨j, p, h1, h2⟩
  · exact .inl ⟨j, p, e, prefix_get g1 h1, prefix_get g2 h2, h3⟩
  · exact .inr ⟨j, p, prefix_get g3 h1, h2⟩

/-! ### The invariant -/

theorem Dir.change {P Q : Prims} {key : Arr 32} {n0 : Nat} {snd rcv : CipherState} {sent : List (Bytes × Bytes)}
    {got : List (Bytes × NResult Unit × Bytes)} (d : Dir P key n0 snd rcv sent got) (hs : P.aeadSeal = Q.aeadSeal)
    (ho : ∀ k n c mac p, P.aeadOpen k n [] c mac = some p → Q.aeadOpen k n [] c mac = some p) :
    Dir Q key n0 snd rcv sent got where
  sk := d.sk
  sn := d.sn
  wires := by
    intro j p w h
    obtain ⟨h1, h2⟩ := d.wires j p w h
    refine ⟨?_, h2⟩
    rw [h1]
    simp only [NX.enc, hs]
  nonempty := d.nonempty
  rk := d.rk
  rn := d.rn
  opened := by
    intro j w h
    obtain ⟨c, mac, p, h1, h2, h3⟩ := d.opened j w h
    exact ⟨c, mac, p, h1, ho _ _ _ _ _ h2, h3⟩

theorem EDir.change {P Q : Prims} {key : Arr 32} {n0 : Nat} {snd rcv : CipherState} {sent : List (Bytes × Bytes)}
    {got : List (Bytes × NResult Unit × Bytes)} {a b : Nat} {sentAt gotAt : List Nat}
    (d : EDir P key n0 snd rcv sent got a b sentAt gotAt) (hs : P.aeadSeal = Q.aeadSeal)
    (ho : ∀ k n c mac p, P.aeadOpen k n [] c mac = some p → Q.aeadOpen k n [] c mac = some p) :
    EDir Q key n0 snd rcv sent got a b sentAt gotAt where
  sk := by rw [← epochKey_congr hs]; exact d.sk
  sn := d.sn
  sentLength := d.sentLength
  sentLe := d.sentLe
  wires := by
    intro j p w h
    obtain ⟨e, h0, h1, h2, h3⟩ := d.wires j p w h
    refine ⟨e, h0, ?_, h2, by rw [← epochKey_congr hs]; exact h3⟩
    rw [h1, ← epochKey_congr hs]
    simp only [NX.enc, hs]
  rk := by rw [← epochKey_congr hs]; exact d.rk
  rn := d.rn
  gotLength := d.gotLength
  gotLe := d.gotLe
  opened := by
    intro j w h
    obtain ⟨c, mac, p, e, h1, h0, h2, h3⟩ := d.opened j w h
    exact ⟨c, mac, p, e, h1, h0, by rw [← epochKey_congr hs]; exact ho _ _ _ _ _ h2, h3⟩

theorem RInv.change {P Q : Prims} {keys : Arr 32 × Arr 32} {n1 n2 : Nat} {n : RNet} (h : RInv P keys n1 n2 n)
    (hs : P.aeadSeal = Q.aeadSeal)
    (ho : ∀ k n c mac p, P.aeadOpen k n [] c mac = some p → Q.aeadOpen k n [] c mac = some p) :
    RInv Q keys n1 n2 n :=
  ⟨h.roles, h.countI, h.countR, h.toR.change hs ho, h.toI.change hs ho⟩

variable {P stream keys n1 n2}

theorem ideal_open {mk : OneTime} {issued : Arr 32 × Arr 12 → Bytes → Prop} {k : Arr 32} {n : Arr 12} {ad c : Bytes}
    {mac : Arr 16} {p : Bytes} (h : (P.ideal stream mk issued).aeadOpen k n ad c mac = some p) :
    issued (k, n) (c ++ mac.toList) ∧ p = mask (stream k n) c := by
  simp only [Prims.ideal] at h
  split at h
  · rename_i hi
    cases h
    exact ⟨hi, rfl⟩
  · cases h

theorem ideal_open_iff {mk : OneTime} {issued : Arr 32 × Arr 12 → Bytes → Prop} (k : Arr 32) (n : Arr 12) (ad c : Bytes)
    (mac : Arr 16) (h : issued (k, n) (c ++ mac.toList)) :
    (P.ideal stream mk issued).aeadOpen k n ad c mac = some (mask (stream k n) c) := by
  simp only [Prims.ideal, if_pos h]

/-- The state of the run without forgeries, after at most `E` times rekeying. -/
structure IdealInv (P : Prims) (stream : Arr 32 → Arr 12 → Nat → UInt8) (keys : Arr 32 × Arr 32) (n1 n2 : Nat) (E : Nat)
    (mk : OneTime) (n : RNet) : Prop where
  inv : RInv (P.ideal stream mk (n.Issued stream keys n1 n2)) keys n1 n2 n
  leI : n.rekeysI ≤ E
  leR : n.rekeysR ≤ E

/-- The act is no rekeying after `E` of them. -/
def RNet.Allows (E : Nat) (n : RNet) (act : RAct) : Prop :=
  ∀ remote, (E ≤ n.rekeysI → act ≠ .rekeyI remote) ∧ (E ≤ n.rekeysR → act ≠ .rekeyR remote)

variable {E : Nat}

theorem IdealInv.step {mk : OneTime} {n : RNet} (h : IdealInv P stream keys n1 n2 E mk n) (act : RAct) (ha : n.Allows E act) :
    IdealInv P stream keys n1 n2 E mk (n.idealStep P stream keys n1 n2 mk act) := by
  have h' := RInv.step h.inv act
  refine ⟨h'.change rfl ?_, ?_, ?_⟩
  · intro k nn c mac p ho
    obtain ⟨h1, rfl⟩ := ideal_open ho
    exact ideal_open_iff _ _ _ _ _ (h1.step _ act)
  · have := h.leI
    cases act with
    | rekeyI remote =>
      have := (ha remote).1
      simp only [ne_eq, not_true_eq_false, imp_false] at this
      simp only [RNet.idealStep, RNet.step]
      omega
    | _ => exact this
  · have := h.leR
    cases act with
    | rekeyR remote =>
      have := (ha remote).2
      simp only [ne_eq, not_true_eq_false, imp_false] at this
      simp only [RNet.idealStep, RNet.step]
      omega
    | _ => exact this

theorem idealRun_inv {mk : OneTime} {forger : RForger} (hE : forger.Rekeys E) {start : RNet}
    (h : IdealInv P stream keys n1 n2 E mk start) (j : Nat) :
    IdealInv P stream keys n1 n2 E mk (RNet.idealRun P stream keys n1 n2 mk forger start j).1 := by
  induction j with
  | zero => exact h
  | succ j ih => exact IdealInv.step ih _ fun remote => hE _ _ remote

/-- A message that was sent is the ciphertext and its tag. -/
theorem RNet.Issued.shape {mk : OneTime} {n : RNet} (hi : IdealInv P stream keys n1 n2 E mk n) {row : Arr 32 × Arr 12}
    {w : Bytes} (h : n.Issued stream keys n1 n2 row w) :
    w = body w ++ (polyTag (mk row) [] (body w)).toList ∧ (body w).length ≤ 65519 := by
  have one : ∀ (key : Arr 32) (N : Nat) (p : Bytes),
      w = NX.enc (P.ideal stream mk (n.Issued stream keys n1 n2)) key N [] p → w.length ≤ 65535 →
      w = body w ++ (polyTag (mk (key, NX.nonce N)) [] (body w)).toList ∧ (body w).length ≤ 65519 := by
    intro key N p h2 h3
    have hb : body w = mask (stream key (NX.nonce N)) p := by
      rw [h2, body_enc]; rfl
    refine ⟨?_, ?_⟩
    · rw [hb, h2]
      rfl
    · simp only [body, List.length_take]
      omega
  rcases h with ⟨j, p, e, h1, h0, rfl⟩ | ⟨j, p, h1, rfl⟩
  · obtain ⟨e', g0, g1, g2, _⟩ := hi.inv.toR.wires j p w h1
    rw [h0] at g0
    cases g0
    rw [epochKey_stream (Q := P.ideal stream mk (n.Issued stream keys n1 n2)) (P := P) (mk := mk) rfl] at g1
    exact one _ _ p g1 g2
  · obtain ⟨g1, g2⟩ := hi.inv.toI.wires j p w h1
    exact one _ _ p g1 g2

/-- One message per key and nonce. -/
theorem RNet.Issued.unique {mk : OneTime} {n : RNet} (hi : IdealInv P stream keys n1 n2 E mk n)
    (hk : ∀ e ≤ E, streamKey stream keys.1 e ≠ keys.2)
    {row : Arr 32 × Arr 12} {w w' : Bytes} (h : n.Issued stream keys n1 n2 row w) (h' : n.Issued stream keys n1 n2 row w') :
    w = w' := by
  have b1 := n.net.i.cs1.n.toNat_lt
  have s1 := hi.inv.toR.sn
  have b2 := n.net.r.cs2.n.toNat_lt
  have s2 := hi.inv.toI.sn
  have leE : ∀ j e, n.sentAt[j]? = some e → e ≤ E := fun j e he =>
    (hi.inv.toR.sentLe e (List.mem_of_getElem? he)).trans hi.leI
  rcases h with ⟨j, p, e, h1, h0, h2⟩ | ⟨j, p, h1, h2⟩ <;> rcases h' with ⟨j', p', e', h1', h0', h2'⟩ | ⟨j', p', h1', h2'⟩
  · have hj := (List.getElem?_eq_some_iff.mp h1).1
    have hj' := (List.getElem?_eq_some_iff.mp h1').1
    have := nonce_inj (by omega) (by omega) (Prod.ext_iff.mp (h2.symm.trans h2')).2
    have hjj : j = j' := by omega
    subst hjj
    rw [h1] at h1'
    cases h1'
    rfl
  · exact absurd (Prod.ext_iff.mp (h2.symm.trans h2')).1 (hk e (leE j e h0))
  · exact absurd (Prod.ext_iff.mp (h2'.symm.trans h2)).1 (hk e' (leE j' e' h0'))
  · have hj := (List.getElem?_eq_some_iff.mp h1).1
    have hj' := (List.getElem?_eq_some_iff.mp h1').1
    have := nonce_inj (by omega) (by omega) (Prod.ext_iff.mp (h2.symm.trans h2')).2
    have hjj : j = j' := by omega
    subst hjj
    rw [h1] at h1'
    cases h1'
    rfl

/-- The run without forgeries, seen as one with the real decryption. -/
theorem IdealInv.real {mk : OneTime} {n : RNet} (h : IdealInv P stream keys n1 n2 E mk n) :
    RInv (P.withMac stream mk) keys n1 n2 n := by
  refine RInv.change h.inv rfl ?_
  intro k nn c mac p ho
  obtain ⟨h1, rfl⟩ := ideal_open ho
  have hs := (h1.shape h).1
  rw [body_append] at hs
  have := List.append_cancel_left hs
  simp only [Prims.withMac]
  rw [if_pos (arr_ext this).symm]

theorem IdealInv.genuine {mk : OneTime} {n : RNet} (h : IdealInv P stream keys n1 n2 E mk n)
    (hk : ∀ e ≤ E, streamKey stream keys.1 e ≠ keys.2) : n.net.Genuine := by
  have hr := h.real
  have b1 := n.net.i.cs1.n.toNat_lt
  have s1 := h.inv.toR.sn
  have b2 := n.net.r.cs2.n.toNat_lt
  have s2 := h.inv.toI.sn
  have b3 := n.net.r.cs1.n.toNat_lt
  have s3 := h.inv.toR.rn
  have b4 := n.net.i.cs2.n.toNat_lt
  have s4 := h.inv.toI.rn
  have ek : ∀ e, epochKey (P.ideal stream mk (n.Issued stream keys n1 n2)) keys.1 e = streamKey stream keys.1 e :=
    fun e => epochKey_stream (Q := P.ideal stream mk (n.Issued stream keys n1 n2)) (P := P) (mk := mk) rfl keys.1 e
  have ek' : ∀ e, epochKey (P.withMac stream mk) keys.1 e = streamKey stream keys.1 e :=
    fun e => epochKey_stream (P := P) (mk := mk) rfl keys.1 e
  have e1 := (hr.toR.prefix_or_forged (withMac_correct P stream mk)).resolve_right (by
    rintro ⟨j, c, mac, p, e, h1, h0, _, h3⟩
    obtain ⟨c', mac', p', e2, g1, g0, ho, hacc⟩ := h.inv.toR.opened j _ h1
    rw [h0] at g0
    cases g0
    have hiss := (ideal_open ho).1
    rw [← g1, ek] at hiss
    have heE : e ≤ E := (h.inv.toR.gotLe e (List.mem_of_getElem? h0)).trans h.leR
    rcases hiss with ⟨j', q, e', f1, f2, f3⟩ | ⟨j', q, f1, f3⟩
    · have hj := (List.getElem?_eq_some_iff.mp hacc).1
      have hj' := (List.getElem?_eq_some_iff.mp f1).1
      have := nonce_inj (by omega) (by omega) (Prod.ext_iff.mp f3).2
      have hjj : j = j' := by omega
      subst hjj
      exact h3 ⟨q, e', f1, f2, by rw [ek', ek']; exact (Prod.ext_iff.mp f3).1.symm⟩
    · exact hk e heE (Prod.ext_iff.mp f3).1)
  have e2 := (hr.toI.prefix_or_forged (withMac_correct P stream mk)).resolve_right (by
    rintro ⟨j, c, mac, p, h1, _, h3⟩
    obtain ⟨c', mac', p', g1, ho, hacc⟩ := h.inv.toI.opened j _ h1
    have hiss := (ideal_open ho).1
    rw [← g1] at hiss
    rcases hiss with ⟨j', q, e', f1, f2, f3⟩ | ⟨j', q, f1, f3⟩
    · exact hk e' ((h.inv.toR.sentLe e' (List.mem_of_getElem? f2)).trans h.leI) (Prod.ext_iff.mp f3).1.symm
    · have hj := (List.getElem?_eq_some_iff.mp hacc).1
      have hj' := (List.getElem?_eq_some_iff.mp f1).1
      have := nonce_inj (by omega) (by omega) (Prod.ext_iff.mp f3).2
      have hjj : j = j' := by omega
      subst hjj
      apply h3
      rw [List.getElem?_map, f1]
      rfl)
  exact ⟨e1.1, e1.2.1, e2.1, e2.2⟩

/-! ## Forgeries -/

/-- The key and nonce under which a delivery will be decrypted, and the bytes. -/
def RNet.attempt (n : RNet) : RAct → Option ((Arr 32 × Arr 12) × Bytes)
  | .net (.toR w) => some ((n.net.r.cs1.k, prepNonce n.net.r.cs1.n), w)
  | .net (.toI w) => some ((n.net.i.cs2.k, prepNonce n.net.i.cs2.n), w)
  | _ => none

def RNet.row (n : RNet) (act : RAct) : Arr 32 × Arr 12 := ((n.attempt act).map (·.1)).getD (n.net.r.cs1.k, prepNonce 0)

/-- The one-time keys under which a delivery is a forgery. -/
def RNet.bad (stream : Arr 32 → Arr 12 → Nat → UInt8) (keys : Arr 32 × Arr 32) (n1 n2 : Nat) (n : RNet) (act : RAct) : Set (Arr 32) :=
  {key | ∃ row w, ∃ hl : 16 ≤ w.length, n.attempt act = some (row, w) ∧ w.length ≤ 65535 ∧
    polyTag key [] (body w) = CipherState.tagArr w hl ∧ ¬ n.Issued stream keys n1 n2 row w}

theorem row_eq {n : RNet} {act : RAct} {row : Arr 32 × Arr 12} {w : Bytes} (h : n.attempt act = some (row, w)) :
    n.row act = row := by simp [RNet.row, h]

/-- Without a forgery the real step is the ideal one. -/
theorem step_eq {mk : OneTime} {n : RNet} (h : IdealInv P stream keys n1 n2 E mk n) (act : RAct)
    (hbad : mk (n.row act) ∉ n.bad stream keys n1 n2 act) :
    n.step (P.withMac stream mk) act = n.idealStep P stream keys n1 n2 mk act := by
  have opens : ∀ k nn w (hl : 16 ≤ w.length), w.length ≤ 65535 → n.attempt act = some ((k, nn), w) →
      (P.withMac stream mk).aeadOpen k nn [] (body w) (CipherState.tagArr w hl) =
        (P.ideal stream mk (n.Issued stream keys n1 n2)).aeadOpen k nn [] (body w) (CipherState.tagArr w hl) := by
    intro k nn w hl hlen hat
    have hw : body w ++ (CipherState.tagArr w hl).toList = w := body_tag w
    by_cases hi : n.Issued stream keys n1 n2 (k, nn) w
    · rw [ideal_open_iff k nn [] (body w) (CipherState.tagArr w hl) (by rw [hw]; exact hi)]
      have hs := (hi.shape h).1
      have := List.append_cancel_left (hs.symm.trans hw.symm)
      simp only [Prims.withMac]
      rw [if_pos (arr_ext this)]
    · have e1 : (P.ideal stream mk (n.Issued stream keys n1 n2)).aeadOpen k nn [] (body w) (CipherState.tagArr w hl) = none := by
        simp only [Prims.ideal]
        rw [if_neg (by rw [hw]; exact hi)]
      rw [e1]
      simp only [Prims.withMac]
      rw [if_neg]
      intro ht
      apply hbad
      rw [row_eq hat]
      exact ⟨_, w, hl, hat, hlen, ht, hi⟩
  cases act with
  | rekeyI remote => rfl
  | rekeyR remote => rfl
  | net act =>
  obtain ⟨b1, _, b3, _⟩ := h.inv.bounds
  obtain ⟨_, hrI, _, hrR⟩ := h.inv.cs
  have key : n.net.step (P.withMac stream mk) act =
      n.net.step (P.ideal stream mk (n.Issued stream keys n1 n2)) act := by
    cases act with
    | iSend secret buf =>
      have : n.net.i.sendMessage (P.withMac stream mk) (Keypair.default P secret) buf =
          n.net.i.sendMessage (P.ideal stream mk (n.Issued stream keys n1 n2)) (Keypair.default P secret) buf :=
        NoiseSession.send_congr _ _ _ b1 _ _ fun _ _ _ _ => rfl
      have this' : n.net.i.sendMessage (P.withMac stream mk) (Keypair.default (P.withMac stream mk) secret) buf =
          n.net.i.sendMessage (P.ideal stream mk (n.Issued stream keys n1 n2))
            (Keypair.default (P.ideal stream mk (n.Issued stream keys n1 n2)) secret) buf := this
      simp only [Net.step, this']
    | rSend secret buf =>
      have : n.net.r.sendMessage (P.withMac stream mk) (Keypair.default P secret) buf =
          n.net.r.sendMessage (P.ideal stream mk (n.Issued stream keys n1 n2)) (Keypair.default P secret) buf :=
        NoiseSession.send_congr _ _ _ b3 _ _ fun _ _ _ _ => rfl
      have this' : n.net.r.sendMessage (P.withMac stream mk) (Keypair.default (P.withMac stream mk) secret) buf =
          n.net.r.sendMessage (P.ideal stream mk (n.Issued stream keys n1 n2))
            (Keypair.default (P.ideal stream mk (n.Issued stream keys n1 n2)) secret) buf := this
      simp only [Net.step, this']
    | toR w =>
      have : n.net.r.recvMessage (P.withMac stream mk) w =
          n.net.r.recvMessage (P.ideal stream mk (n.Issued stream keys n1 n2)) w := by
        apply NoiseSession.recv_congr _ _ b3
        intro hl hlen
        rw [hrR]
        exact opens _ _ w hl hlen rfl
      simp only [Net.step, this]
    | toI w =>
      have : n.net.i.recvMessage (P.withMac stream mk) w =
          n.net.i.recvMessage (P.ideal stream mk (n.Issued stream keys n1 n2)) w := by
        apply NoiseSession.recv_congr _ _ b1
        intro hl hlen
        rw [hrI]
        exact opens _ _ w hl hlen rfl
      simp only [Net.step, this]
  simp only [RNet.idealStep, RNet.step, key]

theorem run_eq {mk : OneTime} {forger : RForger} {start : RNet} (hE : forger.Rekeys E)
    (h : IdealInv P stream keys n1 n2 E mk start) (rounds : Nat)
    (hbad : ∀ j < rounds,
      let s := RNet.idealRun P stream keys n1 n2 mk forger start j
      mk (s.1.row (forger (s.1 :: s.2))) ∉ s.1.bad stream keys n1 n2 (forger (s.1 :: s.2))) :
    RNet.attacked (P.withMac stream mk) forger start rounds = RNet.idealRun P stream keys n1 n2 mk forger start rounds := by
  induction rounds with
  | zero => rfl
  | succ j ih =>
    have e := ih fun i hi => hbad i (by omega)
    simp only [RNet.attacked, RNet.idealRun, e]
    rw [step_eq (idealRun_inv hE h j) _ (hbad j (by omega))]

/-! ## The run without forgeries and the one-time keys -/

/-- A step depends on the one-time keys only through the tag of the message that is sent. -/
theorem idealStep_congr {mk mk' : OneTime} {n : RNet} (h : IdealInv P stream keys n1 n2 E mk n) (act : RAct)
    (he : ∀ row w, (n.idealStep P stream keys n1 n2 mk act).Issued stream keys n1 n2 row w →
      polyTag (mk row) [] (body w) = polyTag (mk' row) [] (body w)) :
    n.idealStep P stream keys n1 n2 mk act = n.idealStep P stream keys n1 n2 mk' act := by
  obtain ⟨b1, b2, b3, b4⟩ := h.inv.bounds
  obtain ⟨hsI, hrI, hsR, hrR⟩ := h.inv.cs
  have e1 := h.inv.toR.sn
  have e3 := h.inv.toI.sn
  have sealEq : ∀ (k : Arr 32) (nn : UInt64) (p : Bytes),
      polyTag (mk (k, prepNonce nn)) [] (mask (stream k (prepNonce nn)) p) =
        polyTag (mk' (k, prepNonce nn)) [] (mask (stream k (prepNonce nn)) p) →
      CipherState.sealed (P.ideal stream mk (n.Issued stream keys n1 n2)) k nn [] p =
        CipherState.sealed (P.ideal stream mk' (n.Issued stream keys n1 n2)) k nn [] p := by
    intro k nn p ht
    show mask (stream k (prepNonce nn)) p ++ (polyTag (mk (k, prepNonce nn)) [] (mask (stream k (prepNonce nn)) p)).toList =
      mask (stream k (prepNonce nn)) p ++ (polyTag (mk' (k, prepNonce nn)) [] (mask (stream k (prepNonce nn)) p)).toList
    rw [ht]
  have bodyEq : ∀ (k : Arr 32) (nn : UInt64) (p : Bytes),
      body (CipherState.sealed (P.ideal stream mk (n.Issued stream keys n1 n2)) k nn [] p) = mask (stream k (prepNonce nn)) p :=
    fun k nn p => body_append _ _
  cases act with
  | rekeyI remote => rfl
  | rekeyR remote => rfl
  | net act =>
  have key : n.net.step (P.ideal stream mk (n.Issued stream keys n1 n2)) act =
      n.net.step (P.ideal stream mk' (n.Issued stream keys n1 n2)) act := by
    cases act with
    | iSend secret buf =>
      have : n.net.i.sendMessage (P.ideal stream mk (n.Issued stream keys n1 n2)) (Keypair.default P secret) buf =
          n.net.i.sendMessage (P.ideal stream mk' (n.Issued stream keys n1 n2)) (Keypair.default P secret) buf := by
        rcases NoiseSession.send_cases (P := P.ideal stream mk (n.Issued stream keys n1 n2)) (Keypair.default P secret)
          n.net.i buf b1 with ⟨h16, hl, hn, hk, hr⟩ | ⟨e, hr⟩
        · apply NoiseSession.send_congr _ _ _ b1
          intro _ _ _ _
          apply sealEq
          rw [NoiseSession.count_ok _ _ (by simpa using b2)] at hr
          have hr' : n.net.i.sendMessage (P.ideal stream mk (n.Issued stream keys n1 n2))
              (Keypair.default (P.ideal stream mk (n.Issued stream keys n1 n2)) secret) buf = _ := hr
          have hiss := he (n.net.i.sendCs.k, prepNonce n.net.i.sendCs.n)
            (CipherState.sealed (P.ideal stream mk (n.Issued stream keys n1 n2)) n.net.i.sendCs.k n.net.i.sendCs.n []
              (body buf)) (by
            left
            refine ⟨n.net.sentI.length, plain buf, n.rekeysI, ?_, ?_, ?_⟩
            · simp only [RNet.idealStep, RNet.step, Net.step, hr', Out.isOk, if_true]
              simp
            · simp only [RNet.idealStep, RNet.step, Net.step, hr', Out.isOk, if_true, List.length_append,
                List.length_singleton, Nat.add_sub_cancel_left, List.replicate_one]
              rw [← h.inv.toR.sentLength]
              simp
            · rw [hsI, h.inv.toR.sk, epochKey_stream (Q := P.ideal stream mk (n.Issued stream keys n1 n2)) (P := P) (mk := mk) rfl, prepNonce_eq, e1])
          rw [bodyEq] at hiss
          exact hiss
        · apply NoiseSession.send_congr _ _ _ b1
          intro a1 a2 a3 a4
          exfalso
          rw [NoiseSession.send_transport _ _ _ (by omega) b1, CipherState.write_ok _ _ (by omega) a3 a4] at hr
          simp only [] at hr
          rw [NoiseSession.count_ok _ _ (by simpa using b2)] at hr
          cases hr
      have this' : n.net.i.sendMessage (P.ideal stream mk (n.Issued stream keys n1 n2))
            (Keypair.default (P.ideal stream mk (n.Issued stream keys n1 n2)) secret) buf =
          n.net.i.sendMessage (P.ideal stream mk' (n.Issued stream keys n1 n2))
            (Keypair.default (P.ideal stream mk' (n.Issued stream keys n1 n2)) secret) buf := this
      simp only [Net.step, this']
    | rSend secret buf =>
      have : n.net.r.sendMessage (P.ideal stream mk (n.Issued stream keys n1 n2)) (Keypair.default P secret) buf =
          n.net.r.sendMessage (P.ideal stream mk' (n.Issued stream keys n1 n2)) (Keypair.default P secret) buf := by
        rcases NoiseSession.send_cases (P := P.ideal stream mk (n.Issued stream keys n1 n2)) (Keypair.default P secret)
          n.net.r buf b3 with ⟨h16, hl, hn, hk, hr⟩ | ⟨e, hr⟩
        · apply NoiseSession.send_congr _ _ _ b3
          intro _ _ _ _
          apply sealEq
          rw [NoiseSession.count_ok _ _ (by simpa using b4)] at hr
          have hr' : n.net.r.sendMessage (P.ideal stream mk (n.Issued stream keys n1 n2))
              (Keypair.default (P.ideal stream mk (n.Issued stream keys n1 n2)) secret) buf = _ := hr
          have hiss := he (n.net.r.sendCs.k, prepNonce n.net.r.sendCs.n)
            (CipherState.sealed (P.ideal stream mk (n.Issued stream keys n1 n2)) n.net.r.sendCs.k n.net.r.sendCs.n []
              (body buf)) (by
            right
            refine ⟨n.net.sentR.length, plain buf, ?_, ?_⟩
            · simp only [RNet.idealStep, RNet.step, Net.step, hr', Out.isOk, if_true]
              simp
            · rw [hsR, h.inv.toI.sk, prepNonce_eq, e3])
          rw [bodyEq] at hiss
          exact hiss
        · apply NoiseSession.send_congr _ _ _ b3
          intro a1 a2 a3 a4
          exfalso
          rw [NoiseSession.send_transport _ _ _ (by omega) b3, CipherState.write_ok _ _ (by omega) a3 a4] at hr
          simp only [] at hr
          rw [NoiseSession.count_ok _ _ (by simpa using b4)] at hr
          cases hr
      have this' : n.net.r.sendMessage (P.ideal stream mk (n.Issued stream keys n1 n2))
            (Keypair.default (P.ideal stream mk (n.Issued stream keys n1 n2)) secret) buf =
          n.net.r.sendMessage (P.ideal stream mk' (n.Issued stream keys n1 n2))
            (Keypair.default (P.ideal stream mk' (n.Issued stream keys n1 n2)) secret) buf := this
      simp only [Net.step, this']
    | toR w =>
      have : n.net.r.recvMessage (P.ideal stream mk (n.Issued stream keys n1 n2)) w =
          n.net.r.recvMessage (P.ideal stream mk' (n.Issued stream keys n1 n2)) w :=
        NoiseSession.recv_congr _ _ b3 _ _ fun _ _ => rfl
      simp only [Net.step, this]
    | toI w =>
      have : n.net.i.recvMessage (P.ideal stream mk (n.Issued stream keys n1 n2)) w =
          n.net.i.recvMessage (P.ideal stream mk' (n.Issued stream keys n1 n2)) w :=
        NoiseSession.recv_congr _ _ b1 _ _ fun _ _ => rfl
      simp only [Net.step, this]
  simp only [RNet.idealStep, RNet.step, key]

theorem idealRun_congr {mk mk' : OneTime} {forger : RForger} {start : RNet}
    (hE : forger.Rekeys E) (h : IdealInv P stream keys n1 n2 E mk start) (j : Nat)
    (he : ∀ row w, (RNet.idealRun P stream keys n1 n2 mk forger start j).1.Issued stream keys n1 n2 row w →
      polyTag (mk row) [] (body w) = polyTag (mk' row) [] (body w)) :
    RNet.idealRun P stream keys n1 n2 mk forger start j = RNet.idealRun P stream keys n1 n2 mk' forger start j := by
  induction j with
  | zero => rfl
  | succ j ih =>
    have e := ih fun row w hi => he row w (hi.step _ _)
    have := idealStep_congr (idealRun_inv (forger := forger) hE h j) _ he
    simp only [RNet.idealRun] at this ⊢
    rw [this, ← e]

/-! ## Counting -/

theorem finite_arr (n : Nat) : Finite (Arr n) := by
  apply Finite.of_injective (fun (a : Arr n) (i : Fin n) => (a.toList[i.val]'(by rw [a.len]; exact i.isLt)).toBitVec.toFin)
  intro a b hab
  apply arr_ext
  apply List.ext_getElem (by rw [a.len, b.len])
  intro i h1 h2
  have := congrFun hab ⟨i, by rwa [a.len] at h1⟩
  exact UInt8.toBitVec_inj.mp (BitVec.toFin_inj.mp this)

instance : Finite OneTime := by
  have := finite_arr 32
  have := finite_arr 12
  infer_instance

/-- The one-time keys of a row that give the message sent there the same tag. -/
def RNet.like (stream : Arr 32 → Arr 12 → Nat → UInt8) (keys : Arr 32 × Arr 32) (n1 n2 : Nat) (mk : OneTime) (n : RNet) (row : Arr 32 × Arr 12) : Set (Arr 32) :=
  {key | ∀ w, n.Issued stream keys n1 n2 row w → polyTag key [] (body w) = polyTag (mk row) [] (body w)}

/-- At most one in `2 ^ 91` of these keys makes a delivery a forgery. -/
theorem card_bad {mk : OneTime} {n : RNet} (h : IdealInv P stream keys n1 n2 E mk n) (hk : ∀ e ≤ E, streamKey stream keys.1 e ≠ keys.2) (act : RAct) :
    2 ^ 91 * Nat.card {key // key ∈ n.like stream keys n1 n2 mk (n.row act) ∧ key ∈ n.bad stream keys n1 n2 act} ≤
      Nat.card {key // key ∈ n.like stream keys n1 n2 mk (n.row act)} := by
  have := finite_arr 32
  rcases hat : n.attempt act with _ | ⟨row, w⟩
  · have : IsEmpty {key // key ∈ n.like stream keys n1 n2 mk (n.row act) ∧ key ∈ n.bad stream keys n1 n2 act} := by
      refine ⟨fun k => ?_⟩
      obtain ⟨_, _, _, hat', _⟩ := k.2.2
      rw [hat] at hat'
      cases hat'
    rw [Nat.card_of_isEmpty]
    omega
  rw [row_eq hat]
  by_cases hgood : 16 ≤ w.length ∧ w.length ≤ 65535 ∧ ¬ n.Issued stream keys n1 n2 row w
  · obtain ⟨hl, hlen, hni⟩ := hgood
    have hbl : (body w).length ≤ 65519 := by simp only [body, List.length_take]; omega
    have hbad : ∀ key, key ∈ n.bad stream keys n1 n2 act →
        Crypto.Poly1305.mac (macInput (body w)) key.toList = CipherState.tagArr w hl := by
      rintro key ⟨row', w', hl', hat', _, ht, _⟩
      rw [hat] at hat'
      cases hat'
      exact ht
    by_cases hex : ∃ w0, n.Issued stream keys n1 n2 row w0
    · obtain ⟨w0, hw0⟩ := hex
      obtain ⟨hs, hl0⟩ := hw0.shape h
      have hlike : ∀ key, key ∈ n.like stream keys n1 n2 mk row ↔
          Crypto.Poly1305.mac (macInput (body w0)) key.toList = polyTag (mk row) [] (body w0) := by
        intro key
        refine ⟨fun hx => hx w0 hw0, fun hx w' hw' => ?_⟩
        rw [hw'.unique h hk hw0]
        exact hx
      have c1 : Nat.card {key // key ∈ n.like stream keys n1 n2 mk row} = 2 ^ 128 := by
        rw [← Crypto.Poly1305.card_mac (macInput (body w0)) (polyTag (mk row) [] (body w0))]
        exact Nat.card_congr (Equiv.subtypeEquivRight hlike)
      rw [c1]
      by_cases hb : body w = body w0
      · have : IsEmpty {key // key ∈ n.like stream keys n1 n2 mk row ∧ key ∈ n.bad stream keys n1 n2 act} := by
          refine ⟨fun k => hni ?_⟩
          have g1 := (hlike _).mp k.2.1
          have g2 := hbad _ k.2.2
          rw [hb, g1] at g2
          have : w = w0 := by
            rw [hs, g2, ← hb]
            exact (body_tag w).symm
          rw [this]; exact hw0
        rw [Nat.card_of_isEmpty]
        omega
      · have hne : macInput (body w0) ≠ macInput (body w) := fun e =>
          hb (macInput_inj (by omega) (by omega) e).symm
        have c2 := Crypto.Poly1305.card_mac_two hne 4096 (blocks_macInput hl0) (blocks_macInput hbl)
          (polyTag (mk row) [] (body w0)) (CipherState.tagArr w hl)
        have c3 : Nat.card {key // key ∈ n.like stream keys n1 n2 mk row ∧ key ∈ n.bad stream keys n1 n2 act} ≤
            Nat.card {key : Arr 32 // Crypto.Poly1305.mac (macInput (body w0)) key.toList = polyTag (mk row) [] (body w0) ∧
              Crypto.Poly1305.mac (macInput (body w)) key.toList = CipherState.tagArr w hl} :=
          Nat.card_le_card_of_injective (fun k => ⟨k.1, (hlike _).mp k.2.1, hbad _ k.2.2⟩) fun a b e =>
            Subtype.ext (congrArg (fun x => x.1) e)
        have := c3.trans c2
        omega
    · have c1 : Nat.card {key // key ∈ n.like stream keys n1 n2 mk row} = 2 ^ 256 := by
        rw [← Crypto.Poly1305.card_keys]
        exact Nat.card_congr (Equiv.subtypeUnivEquiv fun key w' hw' => absurd ⟨w', hw'⟩ hex)
      have c2 : Nat.card {key // key ∈ n.like stream keys n1 n2 mk row ∧ key ∈ n.bad stream keys n1 n2 act} ≤ 2 ^ 128 := by
        rw [← Crypto.Poly1305.card_mac (macInput (body w)) (CipherState.tagArr w hl)]
        exact Nat.card_le_card_of_injective (fun k => ⟨k.1, hbad _ k.2.2⟩) fun a b e =>
          Subtype.ext (congrArg (fun x => x.1) e)
      rw [c1]
      omega
  · have : IsEmpty {key // key ∈ n.like stream keys n1 n2 mk row ∧ key ∈ n.bad stream keys n1 n2 act} := by
      refine ⟨fun k => hgood ?_⟩
      obtain ⟨row', w', hl', hat', g1, _, g2⟩ := k.2.2
      rw [hat] at hat'
      cases hat'
      exact ⟨hl', g1, g2⟩
    rw [Nat.card_of_isEmpty]
    omega

/-- Is this a delivery? -/
def RAct.delivers : RAct → Prop
  | .net (.toR _) => True
  | .net (.toI _) => True
  | _ => False

theorem bad_delivers {n : RNet} {act : RAct} {key : Arr 32} (h : key ∈ n.bad stream keys n1 n2 act) : act.delivers := by
  obtain ⟨_, _, _, h, _⟩ := h
  cases act with
  | net act => cases act <;> trivial
  | _ => cases h

theorem row_session {mk : OneTime} {n : RNet} (h : IdealInv P stream keys n1 n2 E mk n) (act : RAct) :
    SessionKey stream keys E (n.row act).1 := by
  have h1 : SessionKey stream keys E n.net.r.cs1.k := by
    rw [h.inv.toR.rk]
    exact .inr ⟨n.rekeysR, h.leR, (epochKey_stream (Q := P.ideal stream mk (n.Issued stream keys n1 n2)) (P := P) (mk := mk) rfl _ _).symm⟩
  have h2 : SessionKey stream keys E n.net.i.cs2.k := .inl h.inv.toI.rk
  cases act with
  | net act => cases act <;> assumption
  | _ => exact h1

/-- It does not depend on the one-time keys of the sessions. -/
def Apart {α : Type} (stream : Arr 32 → Arr 12 → Nat → UInt8) (keys : Arr 32 × Arr 32) (E : Nat) (f : OneTime → α) : Prop :=
  ∀ mk row y, SessionKey stream keys E row.1 → f (Function.update mk row y) = f mk

/-- One round. -/
theorem card_round {forger : OneTime → RForger} (hE : ∀ mk, (forger mk).Rekeys E) {start : RNet}
    (h : ∀ mk, IdealInv P stream keys n1 n2 E mk start) (hk : ∀ e ≤ E, streamKey stream keys.1 e ≠ keys.2)
    (hF : Apart stream keys E forger) {G : OneTime → Prop} (hG : Apart stream keys E G) (j : Nat) :
    2 ^ 91 * Nat.card {mk : OneTime // G mk ∧
      let s := RNet.idealRun P stream keys n1 n2 mk (forger mk) start j
      mk (s.1.row (forger mk (s.1 :: s.2))) ∈ s.1.bad stream keys n1 n2 (forger mk (s.1 :: s.2))} ≤
    Nat.card {mk : OneTime // G mk ∧
      let s := RNet.idealRun P stream keys n1 n2 mk (forger mk) start j
      (forger mk (s.1 :: s.2)).delivers} := by
  have := finite_arr 32
  have := finite_arr 12
  let S : OneTime → RNet × List RNet := fun mk => RNet.idealRun P stream keys n1 n2 mk (forger mk) start j
  let act : OneTime → RAct := fun mk => forger mk ((S mk).1 :: (S mk).2)
  let row : OneTime → Arr 32 × Arr 12 := fun mk => (S mk).1.row (act mk)
  have hrow : ∀ mk, SessionKey stream keys E (row mk).1 := fun mk => row_session (idealRun_inv (hE mk) (h mk) j) _
  have same : ∀ mk y, forger (Function.update mk (row mk) y) = forger mk := fun mk y => hF mk (row mk) y (hrow mk)
  have keep : ∀ mk, ∀ y ∈ (S mk).1.like stream keys n1 n2 mk (row mk), S (Function.update mk (row mk) y) = S mk := by
    intro mk y hy
    show RNet.idealRun _ _ _ _ _ _ (forger (Function.update mk (row mk) y)) _ _ = _
    rw [same]
    refine (idealRun_congr (hE mk) (h mk) j ?_).symm
    intro r w hi
    by_cases hr : r = row mk
    · subst hr
      rw [Function.update_self]
      exact (hy w hi).symm
    · rw [Function.update_of_ne hr]
  have hG' : ∀ mk y, G (Function.update mk (row mk) y) = G mk := fun mk y => hG mk (row mk) y (hrow mk)
  have := Rows.few (2 ^ 91) row (fun mk => (S mk).1.like stream keys n1 n2 mk (row mk))
    (fun mk => {y | G mk ∧ y ∈ (S mk).1.bad stream keys n1 n2 (act mk)}) ?_ ?_ ?_ ?_ (fun mk => G mk ∧ (act mk).delivers)
    ?_ ?_ ?_
  · exact this
  · exact fun mk w _ => rfl
  · intro mk y hy
    show (S _).1.row (forger _ ((S _).1 :: (S _).2)) = _
    rw [keep mk y hy, same]
  · intro mk y hy
    have e1 : row (Function.update mk (row mk) y) = row mk := by
      show (S _).1.row (forger _ ((S _).1 :: (S _).2)) = _
      rw [keep mk y hy, same]
    show (S (Function.update mk (row mk) y)).1.like stream keys n1 n2 _ (row (Function.update mk (row mk) y)) = _
    rw [keep mk y hy, e1]
    ext key
    refine forall_congr' fun w => forall_congr' fun hw => ?_
    rw [Function.update_self, hy w hw]
  · intro mk y hy
    show {z | G _ ∧ z ∈ (S _).1.bad stream keys n1 n2 (forger _ ((S _).1 :: (S _).2))} = _
    rw [keep mk y hy, same, hG']
  · intro mk y hy
    show G _ ∧ (forger _ ((S _).1 :: (S _).2)).delivers ↔ _
    rw [keep mk y hy, same, hG']
  · exact fun mk y hy => ⟨hy.1, bad_delivers hy.2⟩
  · intro mk
    refine le_trans (Nat.mul_le_mul_left _ ?_) (card_bad (idealRun_inv (hE mk) (h mk) j) hk _)
    exact Nat.card_le_card_of_injective (fun k => ⟨k.1, k.2.1, k.2.2.2⟩) fun a b e => Subtype.ext (congrArg (fun x => x.1) e)

/-- The deliveries of a run are all recorded. -/
theorem step_got (Q : Prims) (n : RNet) (act : RAct) :
    (act.delivers → (n.step Q act).net.gotR.length + (n.step Q act).net.gotI.length = n.net.gotR.length + n.net.gotI.length + 1) ∧
    (¬ act.delivers → (n.step Q act).net.gotR.length + (n.step Q act).net.gotI.length = n.net.gotR.length + n.net.gotI.length) := by
  cases act with
  | net act => cases act <;> simp [RAct.delivers, RNet.step, Net.step] <;> omega
  | _ => simp [RAct.delivers, RNet.step]

theorem deliveries_le {mk : OneTime} {forger : RForger} {i r : NoiseSession} {q : Nat} (hq : forger.AtMost q) (rounds : Nat)
    (s : Finset Nat) (hs : ∀ j ∈ s, j < rounds ∧
      let h := RNet.idealRun P stream keys n1 n2 mk forger { net := { i := i, r := r } } j
      (forger (h.1 :: h.2)).delivers) : s.card ≤ q := by
  classical
  suffices key : ∀ m, (let h := RNet.idealRun P stream keys n1 n2 mk forger { net := { i := i, r := r } } m
      h.1.net.gotR.length + h.1.net.gotI.length ≤ q ∧ (s.filter (· < m)).card ≤ h.1.net.gotR.length + h.1.net.gotI.length) by
    have := key rounds
    rw [Finset.filter_true_of_mem (fun j hj => (hs j hj).1)] at this
    exact this.2.trans this.1
  intro m
  induction m with
  | zero => simp [RNet.idealRun]
  | succ m ih =>
    simp only [] at ih ⊢
    have hstep := step_got (P.ideal stream mk
      ((RNet.idealRun P stream keys n1 n2 mk forger { net := { i := i, r := r } } m).1.Issued stream keys n1 n2))
      (RNet.idealRun P stream keys n1 n2 mk forger { net := { i := i, r := r } } m).1
      (forger ((RNet.idealRun P stream keys n1 n2 mk forger { net := { i := i, r := r } } m).1 ::
        (RNet.idealRun P stream keys n1 n2 mk forger { net := { i := i, r := r } } m).2))
    have hm := hs m
    simp only [RNet.idealRun, RNet.idealStep]
    generalize RNet.idealRun P stream keys n1 n2 mk forger { net := { i := i, r := r } } m = h at *
    have hat := hq h.1 h.2
    have hcard : (s.filter (· < m + 1)).card ≤ (s.filter (· < m)).card + 1 := by
      have : s.filter (· < m + 1) ⊆ insert m (s.filter (· < m)) := by
        intro x hx
        have := Finset.mem_filter.mp hx
        by_cases hxm : x = m
        · exact Finset.mem_insert.mpr (.inl hxm)
        · exact Finset.mem_insert.mpr (.inr (Finset.mem_filter.mpr ⟨this.1, by omega⟩))
      exact (Finset.card_le_card this).trans (Finset.card_insert_le _ _)
    by_cases hd : (forger (h.1 :: h.2)).delivers
    · rw [hstep.1 hd]
      have : h.1.net.gotR.length + h.1.net.gotI.length < q := by
        by_contra hc
        have := fun w => hat w (by omega)
        generalize forger (h.1 :: h.2) = act at *
        cases act with
        | rekeyI _ => exact hd
        | rekeyR _ => exact hd
        | net act =>
          cases act with
          | toR w => exact (this w).1 rfl
          | toI w => exact (this w).2 rfl
          | iSend _ _ => exact hd
          | rSend _ _ => exact hd
      omega
    · rw [hstep.2 hd]
      have : s.filter (· < m + 1) = s.filter (· < m) := by
        ext x
        simp only [Finset.mem_filter]
        refine ⟨fun hx => ⟨hx.1, ?_⟩, fun hx => ⟨hx.1, by omega⟩⟩
        have : x ≠ m := by
          rintro rfl
          exact hd (hm hx.1).2
        omega
      rw [this]
      exact ih

/-- Few choices of the one-time keys let a forgery through, also among those with a property that does not depend on the
one-time keys of the sessions. -/
theorem card_forged {forger : OneTime → RForger} (hE : ∀ mk, (forger mk).Rekeys E) {i r : NoiseSession} {m1 m2 : UInt64}
    (h : InSync i r keys m1 m2) (hk : ∀ e ≤ E, streamKey stream keys.1 e ≠ keys.2) {q : Nat}
    (hq : ∀ mk, (forger mk).AtMost q) (hF : Apart stream keys E forger) {G : OneTime → Prop} (hG : Apart stream keys E G)
    (rounds : Nat) :
    2 ^ 91 * Nat.card {mk : OneTime // G mk ∧
      ¬ (RNet.attacked (P.withMac stream mk) (forger mk) { net := { i := i, r := r } } rounds).1.net.Genuine} ≤
    q * Nat.card {mk : OneTime // G mk} := by
  have hinv : ∀ mk, IdealInv P stream keys m1.toNat m2.toNat E mk { net := { i := i, r := r } } :=
    fun mk => ⟨RInv.start h, Nat.zero_le _, Nat.zero_le _⟩
  have sub : ∀ p : OneTime → Prop, Nat.card {x : {mk : OneTime // G mk} // p x.1} = Nat.card {mk : OneTime // G mk ∧ p mk} :=
    fun p => Nat.card_congr ⟨fun x => ⟨x.1.1, x.1.2, x.2⟩, fun x => ⟨⟨x.1, x.2.1⟩, x.2.2⟩, fun _ => rfl, fun _ => rfl⟩
  have hu := Rows.union (X := {mk : OneTime // G mk}) (2 ^ 91) q rounds
    (fun j mk =>
      let s := RNet.idealRun P stream keys m1.toNat m2.toNat mk.1 (forger mk.1) { net := { i := i, r := r } } j
      mk.1 (s.1.row (forger mk.1 (s.1 :: s.2))) ∈ s.1.bad stream keys m1.toNat m2.toNat (forger mk.1 (s.1 :: s.2)))
    (fun j mk =>
      let s := RNet.idealRun P stream keys m1.toNat m2.toNat mk.1 (forger mk.1) { net := { i := i, r := r } } j
      (forger mk.1 (s.1 :: s.2)).delivers)
    (fun j => by
      rw [sub fun mk =>
          let s := RNet.idealRun P stream keys m1.toNat m2.toNat mk (forger mk) { net := { i := i, r := r } } j
          mk (s.1.row (forger mk (s.1 :: s.2))) ∈ s.1.bad stream keys m1.toNat m2.toNat (forger mk (s.1 :: s.2)),
        sub fun mk =>
          let s := RNet.idealRun P stream keys m1.toNat m2.toNat mk (forger mk) { net := { i := i, r := r } } j
          (forger mk (s.1 :: s.2)).delivers]
      exact card_round hE hinv hk hF hG j)
    (fun mk s hs => deliveries_le (hq mk.1) rounds s hs)
  refine le_trans (Nat.mul_le_mul_left _ ?_) hu
  refine Nat.card_le_card_of_injective (fun mk => ⟨⟨mk.1, mk.2.1⟩, ?_⟩) fun a b e =>
    Subtype.ext (congrArg (fun x => x.1.1) e)
  by_contra hno
  apply mk.2.2
  rw [run_eq (hE mk.1) (hinv mk.1) rounds (fun j hj hh => hno ⟨j, hj, hh⟩)]
  exact (idealRun_inv (hE mk.1) (hinv mk.1) rounds).genuine hk

end SV2.Noise
