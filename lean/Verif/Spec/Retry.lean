import Verif.Spec.Noise
/-!
# A responder that tries to send its handshake message more than once

`send_message` can fail on the second handshake message after it has mixed keys into the handshake state.
-/

namespace SV2.Noise.NX


variable (P : Prims)

/-- Where a responder is: handshake hash and chaining key. -/
structure Progress where
  h : Arr 32
  ck : Arr 32

/-- What it has to send: its ephemeral public key, the two results of Diffie-Hellman, its static public key. -/
structure Answer where
  er : Bytes
  ee : Arr 32
  es : Arr 32
  rs : Bytes

variable (a : Answer)

/-- After `e, ee`, and the key then. -/
def Progress.afterE (p : Progress) : Progress := ⟨P.hash (p.h.toList ++ a.er), (hkdf P p.ck a.ee.toList).1⟩
def Progress.keyE (p : Progress) : Arr 32 := (hkdf P p.ck a.ee.toList).2

/-- The encrypted static key. -/
def Progress.encS (p : Progress) : Bytes := enc P (p.keyE P a) 0 (p.afterE P a).h.toList a.rs

/-- After `e, ee, s, es`, and the key then. -/
def Progress.afterS (p : Progress) : Progress :=
  ⟨P.hash ((p.afterE P a).h.toList ++ p.encS P a), (hkdf P (p.afterE P a).ck a.es.toList).1⟩
def Progress.keyS (p : Progress) : Arr 32 := (hkdf P (p.afterE P a).ck a.es.toList).2

/-- The whole message. -/
def Progress.message (p : Progress) (payload : Bytes) : Bytes :=
  a.er ++ p.encS P a ++ enc P (p.keyS P a) 0 (p.afterS P a).h.toList payload

/-- The transport keys and the handshake hash after it. -/
def Progress.keys (p : Progress) : Arr 32 × Arr 32 := hkdf P (p.afterS P a).ck []
def Progress.hash (p : Progress) (payload : Bytes) : Arr 32 :=
  P.hash ((p.afterS P a).h.toList ++ enc P (p.keyS P a) 0 (p.afterS P a).h.toList payload)

/-- What a failed attempt with a buffer of this size does. -/
def Progress.failed (p : Progress) (size : Nat) : Progress :=
  if size < 32 ∨ 65535 < size then p else if size < 80 ∨ p.keyE P a = zeros then p.afterE P a else p.afterS P a

end NX

/-- A session after attempts to send, each with the secret that is drawn if one is needed and a buffer. -/
def NoiseSession.attempts (P : Prims) (s : NoiseSession) (tries : List (Arr 32 × Bytes)) : NoiseSession :=
  tries.foldl (fun s t => (s.sendMessage P (Keypair.default P t.1) t.2).2.1) s

/-- None of them succeeded. -/
def NoiseSession.AllFail (P : Prims) : NoiseSession → List (Arr 32 × Bytes) → Prop
  | _, [] => True
  | s, t :: tries => (s.sendMessage P (Keypair.default P t.1) t.2).1 ≠ .ok () ∧
      NoiseSession.AllFail P (s.sendMessage P (Keypair.default P t.1) t.2).2.1 tries

/-- The secret that is used: that of the first attempt with a buffer of a size that has room for the key. -/
def firstSecret (tries : List (Arr 32 × Bytes)) : Arr 32 :=
  ((tries.filter fun t => 32 ≤ t.2.length ∧ t.2.length ≤ 65535).map (·.1)).headD NX.zeros

end SV2.Noise
