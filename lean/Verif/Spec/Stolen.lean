import Verif.Spec.Forward
/-!
# Somebody gets the sessions after they have changed keys

A client sends messages, and now and then both sides change the key.  Right after such a change the sessions, with all keys,
get into the wrong hands.
-/

namespace SV2.Noise

/-- A step: the initiator sends one of two texts, in buffers with 16 bytes more, or bytes are delivered to the responder. -/
inductive Say where
  | text (m0 m1 : Bytes)
  | deliver (bytes : Bytes)

def Say.move : Say → Move
  | .text m0 m1 => .send .initiator m0 m1
  | .deliver bytes => .deliver .responder bytes

/-- An attacker with a memory.  It chooses each step, and then sees what came of it, without the keys; in the end it gets
both sessions, and says yes or no.  Before each it hashes and computes blocks. -/
structure Thief (σ : Type) where
  next : σ → Curious (Say × (Seen → σ))
  verdict : σ → NoiseSession → NoiseSession → Curious Bool

variable (P : Prims) (rest : Arr 32 → Arr 12 → Nat → UInt8) (blocks : Blocks) {σ : Type}

/-- The sessions after a number of steps, and what it remembers; `second` says which texts are sent. -/
def Thief.watch (thief : Thief σ) (second : Bool) : (steps : Nat) → Duo → σ → Duo × σ
  | 0, s, x => (s, x)
  | steps + 1, s, x =>
    let p := ((thief.next x).play P rest blocks).result
    let r := s.act (P.withBlocks rest blocks) second p.1.move
    Thief.watch thief second steps r.2.2 (p.2 (Seen.blind ⟨r.1, r.2.1, r.2.2.1, r.2.2.2⟩))

/-- Both sides call `rekey_local_cipherstate`. -/
def Duo.rekeyed (Q : Prims) (s : Duo) : Duo := (s.1.rekeyLocal Q, s.2.rekeyLocal Q)

/-- So many times: some steps, then both change the key. -/
def Thief.watches (thief : Thief σ) (second : Bool) (steps : Nat) : (times : Nat) → Duo → σ → Duo × σ
  | 0, s, x => (s, x)
  | times + 1, s, x =>
    let r := thief.watch P rest blocks second steps s x
    Thief.watches thief second steps times (r.1.rekeyed (P.withBlocks rest blocks)) r.2

/-- The session with this key for the messages of the initiator. -/
def NoiseSession.keyed (k : Arr 32) (s : NoiseSession) : NoiseSession := { s with cs1 := { s.cs1 with k := k } }

/-- At first the initiator sends with the key `k`, and the responder expects it.  After the last change of keys the attacker
gets the sessions, and says yes. -/
def Stolen (i r : NoiseSession) (thief : Thief σ) (x : σ) (steps times : Nat) (second : Bool) (k : Arr 32) : Prop :=
  let t := thief.watches P rest blocks second steps times (i.keyed k, r.keyed k) x
  ((thief.verdict t.2 t.1.1 t.1.2).play P rest blocks).result = true

end SV2.Noise
