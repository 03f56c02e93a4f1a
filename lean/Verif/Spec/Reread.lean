import Verif.Spec.Retry
/-!
# An initiator that gets the second handshake message more than once

`recv_message` can refuse a second handshake message after it has mixed parts of it into the handshake state.
-/

namespace SV2.Noise.NX

variable (P : Prims)

/-- The wire bytes, ciphertext and tag, open to `text` with the key `k` under the handshake hash `h`. -/
def Opens (k h : Arr 32) (wire text : Bytes) : Prop :=
  k ≠ zeros ∧ ∃ (c : Bytes) (mac : Arr 16), wire = c ++ mac.toList ∧ P.aeadOpen k (nonce 0) h.toList c mac = some text

/-- A message with an ephemeral key that is taken. -/
structure Taken (w : Bytes) : Prop where
  long : 48 ≤ w.length
  short : w.length ≤ 65535
  key : leNat (w.take 32) ∉ Curve.lowOrder

/-- The encrypted static key in a message. -/
def staticPart (w : Bytes) : Bytes := (w.drop 32).take 48

/-- The peer has sent these bytes with or for its public key `pub`; the own secret is `e`. -/
def Progress.mix (p : Progress) (e pub : Arr 32) (sent : Bytes) : Progress :=
  ⟨P.hash (p.h.toList ++ sent), (hkdf P p.ck (P.dh e pub).toList).1⟩

/-- The key then. -/
def Progress.key (p : Progress) (e pub : Arr 32) : Arr 32 := (hkdf P p.ck (P.dh e pub).toList).2

/-- After `e, ee` of a message with this ephemeral key, and after `s, es` of the message with this static key. -/
def Progress.one (p : Progress) (e re : Arr 32) : Progress := p.mix P e re re.toList
def Progress.two (p : Progress) (e re rs : Arr 32) (w : Bytes) : Progress := (p.one P e re).mix P e rs (staticPart w)

/-- The static key of the message can be read: it is `rs`. -/
structure Known (p : Progress) (e : Arr 32) (w : Bytes) (re rs : Arr 32) : Prop where
  taken : Taken w
  ephemeral : re.toList = w.take 32
  long : 80 ≤ w.length
  opens : Opens P (p.key P e re) (p.one P e re).h (staticPart w) rs.toList

/-- The message with its static key in the clear. -/
def revealed (w : Bytes) (rs : Arr 32) : Bytes := w.take 32 ++ rs.toList ++ w.drop 64

/-- What is said of a part that does not open with this key. -/
def closed (k : Arr 32) : NResult Unit := .err (if k = zeros then .emptyKeyError else .decryptionError)

/-- The messages that an initiator does not accept that has come to `p` with the secret `e`: what `recv_message` returns,
where the initiator then is, and what is in the buffer. -/
inductive Refuses (p : Progress) (e : Arr 32) (w : Bytes) : NResult Unit → Progress → Bytes → Prop
  | length (h : w.length < 16 ∨ 65535 < w.length) : Refuses p e w (.err .unsupportedMessageLengthError) p w
  | short (h1 : 16 ≤ w.length) (h2 : w.length < 48) : Refuses p e w (.err .missingreError) p w
  | key (h1 : 48 ≤ w.length) (h2 : w.length ≤ 65535) (h3 : leNat (w.take 32) ∈ Curve.lowOrder) :
      Refuses p e w (.err .invalidPublicKeyError) p w
  | noStatic (re : Arr 32) (h1 : Taken w) (h2 : re.toList = w.take 32) (h3 : w.length < 80) :
      Refuses p e w (.err .missingrsError) (p.one P e re) w
  | unknown (re : Arr 32) (h1 : Taken w) (h2 : re.toList = w.take 32) (h3 : 80 ≤ w.length)
      (h4 : ¬ ∃ text, Opens P (p.key P e re) (p.one P e re).h (staticPart w) text) :
      Refuses p e w (closed (p.key P e re)) (p.one P e re) w
  | static (re rs : Arr 32) (h1 : Known P p e w re rs) (h2 : leNat rs.toList ∈ Curve.lowOrder) :
      Refuses p e w (.err .invalidPublicKeyError) ⟨(p.two P e re rs w).h, (p.one P e re).ck⟩ (revealed w rs)
  | crash (re rs : Arr 32) (h1 : Known P p e w re rs) (h2 : leNat rs.toList ∉ Curve.lowOrder)
      (h3 : w.length < 96 ∨ 2128 < w.length) : Refuses p e w .panic (p.two P e re rs w) (revealed w rs)
  | payload (re rs : Arr 32) (h1 : Known P p e w re rs) (h2 : leNat rs.toList ∉ Curve.lowOrder)
      (h3 : 96 ≤ w.length) (h4 : w.length ≤ 2128)
      (h5 : ¬ ∃ text, Opens P ((p.one P e re).key P e rs) (p.two P e re rs w).h (w.drop 80) text) :
      Refuses p e w (closed ((p.one P e re).key P e rs)) (p.two P e re rs w) (revealed w rs)

/-- The messages that it accepts: the handshake hash, the transport keys, the static key of the responder, and what is in the
buffer. -/
inductive Accepts (p : Progress) (e : Arr 32) (w : Bytes) : Arr 32 → Arr 32 × Arr 32 → Arr 32 → Bytes → Prop
  | mk (re rs : Arr 32) (text : Bytes) (h1 : Known P p e w re rs) (h2 : leNat rs.toList ∉ Curve.lowOrder)
      (h3 : 96 ≤ w.length) (h4 : w.length ≤ 2128)
      (h5 : Opens P ((p.one P e re).key P e rs) (p.two P e re rs w).h (w.drop 80) text) :
      Accepts p e w (P.hash ((p.two P e re rs w).h.toList ++ w.drop 80)) (hkdf P (p.two P e re rs w).ck []) rs
        (w.take 32 ++ rs.toList ++ (w.drop 64).take 16 ++ text ++ w.drop (w.length - 16))

/-- The parts of a refused message that stay in the handshake hash: none, the ephemeral key, or also the encrypted static
key. -/
inductive Stays (w : Bytes) : List Bytes → Prop
  | nothing (h : ¬ Taken w) : Stays w []
  | ephemeral (h : Taken w) : Stays w [w.take 32]
  | static (h : Taken w) (hl : 80 ≤ w.length) : Stays w [w.take 32, staticPart w]

/-- The parts that stay of several. -/
inductive StayAll : List Bytes → List Bytes → Prop
  | nil : StayAll [] []
  | cons {w : Bytes} {ws parts rest : List Bytes} (h : Stays w parts) (hs : StayAll ws rest) : StayAll (w :: ws) (parts ++ rest)

end NX

/-- A session after receives. -/
def NoiseSession.receives (P : Prims) (s : NoiseSession) (ws : List Bytes) : NoiseSession :=
  ws.foldl (fun s w => (s.recvMessage P w).2.1) s

/-- All of them returned an error. -/
def NoiseSession.AllRefused (P : Prims) : NoiseSession → List Bytes → Prop
  | _, [] => True
  | s, w :: ws => (∃ e, (s.recvMessage P w).1 = .err e) ∧ NoiseSession.AllRefused P (s.recvMessage P w).2.1 ws

end SV2.Noise
