import Verif.Lemmas.Secrecy
import Verif.Lemmas.Noise.Accepted
import Verif.Props.Roles
import Verif.Lemmas.Birthday
/-!
# C91: messages stay secret

The game and the pads are in `Verif/Spec/Secrecy.lean`.
-/

namespace SV2.Noise

variable (P : Prims) (tag : Arr 32 → Arr 12 → Bytes → Bytes → Arr 16) (rest : Arr 32 → Arr 12 → Nat → UInt8)

/-! ## The pads -/

theorem stream_byte (key : Arr 32) (nonce : Arr 12) (n : Nat) (c : UInt32) (i : Nat) (h : i < 64 * n) :
    (Crypto.ChaCha20.stream key nonce n c)[i]? =
      (Crypto.ChaCha20.block key (c + UInt32.ofNat (i / 64)) nonce)[i % 64]? := by
  induction n generalizing c i with
  | zero => omega
  | succ n ih =>
    simp only [Crypto.ChaCha20.stream]
    have hb : (Crypto.ChaCha20.block key c nonce).length = 64 := Crypto.X25519.length_toLE _ _
    by_cases hi : i < 64
    · rw [List.getElem?_append_left (by omega), show i / 64 = 0 by omega, show i % 64 = i by omega]
      simp
    · rw [List.getElem?_append_right (by omega), hb, ih _ _ (by omega), show (i - 64) % 64 = i % 64 by omega]
      congr 2
      have : i / 64 = (i - 64) / 64 + 1 := by omega
      rw [this, UInt32.ofNat_add, UInt32.add_assoc, UInt32.add_comm 1]
      rfl

/-- Byte `i` of the key stream of ChaCha20 (RFC 8439, 2.4), from block 1 on. -/
def chachaByte (k : Arr 32) (n : Arr 12) (i : Nat) : UInt8 :=
  (Crypto.ChaCha20.block k (1 + UInt32.ofNat (i / 64)) n).getD (i % 64) 0

theorem chacha_mask (k : Arr 32) (n : Arr 12) (m : Bytes) :
    Crypto.ChaCha20.xor k 1 n m = mask (chachaByte k n) m := by
  apply List.ext_getElem (by rw [Crypto.ChaCha20.length_xor, length_mask])
  intro i h1 h2
  have hi : i < m.length := by rwa [length_mask] at h2
  have hs : i < (Crypto.ChaCha20.stream k n ((m.length + 63) / 64) 1).length := by
    rw [Crypto.ChaCha20.length_stream]; omega
  have := stream_byte k n ((m.length + 63) / 64) 1 i (by omega)
  rw [List.getElem?_eq_getElem hs] at this
  simp only [Crypto.ChaCha20.xor, List.getElem_zipWith, mask, List.getElem_mapIdx, chachaByte, List.getD, ← this,
    Option.getD_some]

/-- ChaCha20-Poly1305 is of this form: the pads are the key stream from block 1 on, the MAC is Poly1305 under the key
from block 0. -/
theorem C91_rfc :
    Crypto.rfc = Crypto.rfc.withPad Crypto.Aead.tag chachaByte (fun k n i => chachaByte k n i.val) := by
  have hb : ∀ k n, Pad.byte (fun k n i => chachaByte k n i.val) chachaByte k n = chachaByte k n := by
    intro k n
    funext i
    unfold Pad.byte
    split <;> rfl
  have h1 : Crypto.rfc.aeadSeal =
      (Crypto.rfc.withPad Crypto.Aead.tag chachaByte (fun k n i => chachaByte k n i.val)).aeadSeal := by
    funext k n ad m
    simp only [Prims.withPad, hb, ← chacha_mask]
    rfl
  have h2 : Crypto.rfc.aeadOpen =
      (Crypto.rfc.withPad Crypto.Aead.tag chachaByte (fun k n i => chachaByte k n i.val)).aeadOpen := by
    funext k n ad c m
    simp only [Prims.withPad, hb, ← chacha_mask]
    rfl
  have hext : ∀ p q : Prims, p.hash = q.hash → p.aeadSeal = q.aeadSeal → p.aeadOpen = q.aeadOpen → p.dh = q.dh →
      p.publicOf = q.publicOf → p = q := by
    intro p q; cases p; cases q; simp_all
  exact hext _ _ rfl h1 h2 rfl rfl

/-- There are finitely many pads, so one can be chosen at random. -/
theorem C91_finite : Finite Pad := by
  have h : ∀ n, Finite (Arr n) := by
    intro n
    apply Finite.of_injective (fun (a : Arr n) (i : Fin n) => (a.toList[i.val]'(by rw [a.len]; exact i.isLt)).toBitVec.toFin)
    intro a b hab
    apply arr_ext
    apply List.ext_getElem (by rw [a.len, b.len])
    intro i h1 h2
    have := congrFun hab ⟨i, by rwa [a.len] at h1⟩
    exact UInt8.toBitVec_inj.mp (BitVec.toFin_inj.mp this)
  have hu : Finite UInt8 := Finite.of_injective (fun x : UInt8 => x.toBitVec.toFin) fun a b hab =>
    UInt8.toBitVec_inj.mp (BitVec.toFin_inj.mp hab)
  have := h 32
  have := h 12
  infer_instance

/-! ## Transport messages -/

/-- Two sessions in different roles after the handshake, and any attacker that chooses each move from all it has seen:
for every choice of the pads where first messages are sent there is exactly one where second messages are sent and it
sees the same. -/
theorem C91_worlds (i r : NoiseSession) (hi : i.i = true) (hr : r.i = false) (hi' : 2 ≤ i.getMessageCount)
    (hr' : 2 ≤ r.getMessageCount) (attacker : Attacker) (rounds : Nat) :
    ∃ e : Pad ≃ Pad, ∀ pad,
      Duo.play (P.withPad tag rest pad) false attacker rounds (i, r) [] =
        Duo.play (P.withPad tag rest (e pad)) true attacker rounds (i, r) [] := by
  obtain ⟨e, he, -⟩ := Duo.play_swap P tag rest attacker rounds (i, r) [] ⟨hi, hr, hi', hr'⟩
  exact ⟨e, he⟩

/-- So no test of what it has seen tells the two apart: it comes out true for as many pads in the one case as in the
other. -/
theorem C91_indistinguishable (i r : NoiseSession) (hi : i.i = true) (hr : r.i = false) (hi' : 2 ≤ i.getMessageCount)
    (hr' : 2 ≤ r.getMessageCount) (attacker : Attacker) (rounds : Nat) (test : List Seen → Prop) :
    Nat.card {pad : Pad // test (Duo.play (P.withPad tag rest pad) false attacker rounds (i, r) [])} =
      Nat.card {pad : Pad // test (Duo.play (P.withPad tag rest pad) true attacker rounds (i, r) [])} := by
  obtain ⟨e, he⟩ := C91_worlds P tag rest i r hi hr hi' hr' attacker rounds
  exact Nat.card_congr (e.subtypeEquiv fun pad => by rw [he])

/-- The sessions of an honest handshake (C38) are such a pair. -/
example : toyI.i = true ∧ toyR.i = false ∧ 2 ≤ toyI.getMessageCount ∧ 2 ≤ toyR.getMessageCount ∧
    toyI.cs1.k ≠ toyR.cs2.k := by decide

/-- An attacker that has each party send a message, with a change of keys between, and looks at the wire.  With one and
the same pad it does see different things in the two cases. -/
def curious : Attacker := fun seen =>
  match seen.length with
  | 0 => .send .initiator ([1, 2, 3] ++ List.replicate 16 0) ([7, 7, 7] ++ List.replicate 16 0)
  | 1 => .rekeyLocal .initiator
  | 2 => .send .responder ([4] ++ List.replicate 16 0) ([5] ++ List.replicate 16 0)
  | _ => .send .initiator ([6] ++ List.replicate 16 0) ([0] ++ List.replicate 16 0)

example :
    let Q := toyPrims.withPad (fun _ _ _ _ => Arr.replicate 16 9) (fun _ _ _ => 0) (fun _ _ _ => 8)
    (Duo.play Q false curious 4 (toyI, toyR) []).map (fun v => v.wire.take 3) =
      [[9, 10, 11], [], [12, 9, 9], [14, 9, 9]] ∧
    (Duo.play Q true curious 4 (toyI, toyR) []).map (fun v => v.wire.take 3) =
      [[15, 15, 15], [], [13, 9, 9], [8, 9, 9]] := by
  decide +kernel

/-! ## The payload of the second handshake message -/

/-- A responder that has received a first message and answers, with either of two payloads of the same length: for
every choice of the pads in the one case there is exactly one in the other with the same result, the same message and
the same session.  The two handshake keys are different and not zero. -/
theorem C91_payload (prologue w1 out : Bytes) (kp e : Keypair) (r : NoiseSession) (re : Arr 32)
    (hre : re.toList = w1.take 32)
    (hr : (NoiseSession.initSession P false prologue kp).recvMessage P w1 = (.ok (), r, out))
    (hk1 : (NX.afterEE P (P.dh e.private_key re)).2 ≠ NX.zeros)
    (hk2 : (NX.afterES P (P.dh e.private_key re) (P.dh kp.private_key re)).2 ≠ NX.zeros)
    (hne : (NX.afterEE P (P.dh e.private_key re)).2 ≠
      (NX.afterES P (P.dh e.private_key re) (P.dh kp.private_key re)).2)
    (b0 b1 : Bytes) (h1 : 96 ≤ b0.length) (h2 : b0.length ≤ 65535) (hl : b0.length = b1.length) :
    ∃ f : Pad ≃ Pad, ∀ pad, r.sendMessage (P.withPad tag rest pad) e b0 =
      r.sendMessage (P.withPad tag rest (f pad)) e b1 ∧
      (r.sendMessage (P.withPad tag rest pad) e b0).1 = .ok () := by
  obtain ⟨re', hre', -, rfl, -, -⟩ := recv_first_ok hr
  have : re' = re := arr_ext (hre'.trans hre.symm)
  subst this
  let k := (NX.afterES P (P.dh e.private_key re') (P.dh kp.private_key re')).2
  let d : Nat → UInt8 := fun i => (body (b0.drop 80)).getD i 0 ^^^ (body (b1.drop 80)).getD i 0
  refine ⟨⟨Pad.flip k (NX.nonce 0) d, Pad.flip k (NX.nonce 0) d, Pad.flip_flip _ _ _, Pad.flip_flip _ _ _⟩,
    fun pad => ?_⟩
  have s0 := send_second (P := P.withPad tag rest pad) false prologue kp e re' (w1.take 32) (w1.drop 32) b0 h1 h2 hk1 hk2
  have s1 := send_second (P := P.withPad tag rest (pad.flip k (NX.nonce 0) d)) false prologue kp e re' (w1.take 32)
    (w1.drop 32) b1 (by omega) (by omega) hk1 hk2
  have m0 : mid P false prologue kp Keypair.empty re' (w1.take 32) (w1.drop 32) =
    mid (P.withPad tag rest pad) false prologue kp Keypair.empty re' (w1.take 32) (w1.drop 32) := rfl
  have m1 : mid P false prologue kp Keypair.empty re' (w1.take 32) (w1.drop 32) =
    mid (P.withPad tag rest (pad.flip k (NX.nonce 0) d)) false prologue kp Keypair.empty re' (w1.take 32)
      (w1.drop 32) := rfl
  rw [← m0] at s0
  rw [← m1] at s1
  have eS : ∀ ad, NX.enc (P.withPad tag rest pad) (NX.afterEE P (P.dh e.private_key re')).2 0 ad kp.public_key.toList =
      NX.enc (P.withPad tag rest (pad.flip k (NX.nonce 0) d)) (NX.afterEE P (P.dh e.private_key re')).2 0 ad
        kp.public_key.toList := by
    intro ad
    unfold NX.enc
    rw [seal_congr P tag rest (pad := pad) (pad' := pad.flip k (NX.nonce 0) d)
      (Pad.flip_other (fun h => hne h.1)).symm]
  have eP : ∀ ad, NX.enc (P.withPad tag rest pad) k 0 ad (body (b0.drop 80)) =
      NX.enc (P.withPad tag rest (pad.flip k (NX.nonce 0) d)) k 0 ad (body (b1.drop 80)) := by
    intro ad
    unfold NX.enc
    rw [seal_flip P tag rest pad k (NX.nonce 0) ad (body (b0.drop 80)) (body (b1.drop 80)) (by simp [body, hl])
      (by simp [body]; omega)]
  refine ⟨?_, by rw [s0]⟩
  refine s0.trans (Eq.trans ?_ s1.symm)
  let S := fun pad : Pad => NX.encryptedStatic (P.withPad tag rest pad) prologue (w1.take 32) (w1.drop 32)
    e.public_key.toList (P.dh e.private_key re') kp.public_key.toList
  have hS : S pad = S (pad.flip k (NX.nonce 0) d) := eS _
  have hP : NX.encryptedPayload (P.withPad tag rest pad) prologue (w1.take 32) (w1.drop 32) e.public_key.toList (S pad)
        (P.dh e.private_key re') (P.dh kp.private_key re') (body (b0.drop 80)) =
      NX.encryptedPayload (P.withPad tag rest (pad.flip k (NX.nonce 0) d)) prologue (w1.take 32) (w1.drop 32)
        e.public_key.toList (S (pad.flip k (NX.nonce 0) d)) (P.dh e.private_key re') (P.dh kp.private_key re')
        (body (b1.drop 80)) := by
    rw [← hS]; exact eP _
  exact congrArg₂ (fun s p : Bytes => ((.ok (), done false EMPTY
    (NX.transcript P [prologue, w1.take 32, w1.drop 32, e.public_key.toList, s, p])
    (NX.transportKeys P (P.dh e.private_key re') (P.dh kp.private_key re')) 1, e.public_key.toList ++ s ++ p) :
      NResult Unit × NoiseSession × Bytes)) hS hP

/-- A first message, and an answer with 4 bytes of payload. -/
example : ∃ r out, (NoiseSession.initSession toyPrims false [1, 2] (Keypair.default toyPrims (Arr.replicate 32 5))).recvMessage
      toyPrims ((toyPrims.publicOf (Arr.replicate 32 3)).toList ++ List.replicate 18 8) = (.ok (), r, out) ∧
    let ee := toyPrims.dh (Arr.replicate 32 4) (toyPrims.publicOf (Arr.replicate 32 3))
    let es := toyPrims.dh (Arr.replicate 32 5) (toyPrims.publicOf (Arr.replicate 32 3))
    (NX.afterEE toyPrims ee).2 ≠ (NX.afterES toyPrims ee es).2 ∧ (NX.afterEE toyPrims ee).2 ≠ NX.zeros ∧
      (NX.afterES toyPrims ee es).2 ≠ NX.zeros := by
  refine ⟨_, _, recv_first false [1, 2] _ _ _ (by decide) (by decide) (toy_dh.public_ok _), ?_⟩
  decide +kernel

end SV2.Noise
