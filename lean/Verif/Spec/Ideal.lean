import Verif.Spec.Integrity
import Verif.Spec.Stack
/-!
# A random ChaCha20

The block function of ChaCha20 makes 64 bytes from a key, a nonce and a counter.  Block 0 has the one-time key of Poly1305
in its first half, the blocks from 1 on are the key stream.  Here the block function is any table, so that one can be
chosen at random, and an attacker on the network of two parties that exchange frames.
-/

namespace SV2.Noise

/-- A block for every key, nonce and counter.  The longest message has 65519 bytes of text: the counter does not get
beyond 1024. -/
abbrev Blocks := Arr 32 × Arr 12 × Fin 1025 → Arr 64

/-- Byte `i` of the key stream; after block 1024 (where no session gets) from `rest`. -/
def Blocks.stream (rest : Arr 32 → Arr 12 → Nat → UInt8) (blocks : Blocks) (k : Arr 32) (n : Arr 12) (i : Nat) : UInt8 :=
  if h : i < 65536 then (blocks (k, n, ⟨1 + i / 64, by omega⟩)).toList.getD (i % 64) 0 else rest k n i

/-- The one-time keys. -/
def Blocks.oneTime (blocks : Blocks) : OneTime := fun x =>
  ⟨(blocks (x.1, x.2, 0)).toList.take 32, by rw [List.length_take, Arr.len]; rfl⟩

/-- `P` with the AEAD of RFC 8439 over this block function. -/
def Prims.withBlocks (P : Prims) (rest : Arr 32 → Arr 12 → Nat → UInt8) (blocks : Blocks) : Prims :=
  P.withMac (blocks.stream rest) blocks.oneTime

end SV2.Noise

namespace SV2.Stack
open Noise

/-- What can happen: a party sends a frame, bytes are delivered, or a party calls one of the rekey functions. -/
inductive SAct where
  | stack (act : StackAct)
  | rekeyI (remote : Bool)
  | rekeyR (remote : Bool)

def SAct.act : SAct → RAct
  | .stack act => .net act.act
  | .rekeyI remote => .rekeyI remote
  | .rekeyR remote => .rekeyR remote

/-- The two sessions with their history, and the frames for which `send_message` returned `Ok`. -/
structure SNet where
  rnet : RNet
  framesI : List Message := []
  framesR : List Message := []

/-- The frame that is to be sent. -/
def SAct.frame? : SAct → List Message
  | .stack (.iSend _ f _) => [f]
  | .stack (.rSend _ f _) => [f]
  | _ => []

def SNet.step (P : Prims) (n : SNet) (act : SAct) : SNet :=
  let m := n.rnet.step P act.act
  { rnet := m
    framesI := if n.rnet.net.sentI.length < m.net.sentI.length then n.framesI ++ act.frame? else n.framesI
    framesR := if n.rnet.net.sentR.length < m.net.sentR.length then n.framesR ++ act.frame? else n.framesR }

/-- An attacker chooses the next step from all that has happened, including both sessions with all keys. -/
abbrev SForger := List SNet → SAct

/-- It makes at most `q` deliveries. -/
def SForger.AtMost (forger : SForger) (q : Nat) : Prop :=
  ∀ (n : SNet) (past : List SNet) (w : Bytes), q ≤ n.rnet.net.gotR.length + n.rnet.net.gotI.length →
    forger (n :: past) ≠ .stack (.toR w) ∧ forger (n :: past) ≠ .stack (.toI w)

/-- It has each side rekey at most `E` times. -/
def SForger.Rekeys (forger : SForger) (E : Nat) : Prop :=
  ∀ (n : SNet) (past : List SNet) (remote : Bool), (E ≤ n.rnet.rekeysI → forger (n :: past) ≠ .rekeyI remote) ∧
    (E ≤ n.rnet.rekeysR → forger (n :: past) ≠ .rekeyR remote)

/-- The state after a number of steps, and all states before it. -/
def SNet.attacked (P : Prims) (forger : SForger) (start : SNet) : Nat → SNet × List SNet
  | 0 => (start, [])
  | j + 1 =>
    let h := SNet.attacked P forger start j
    (h.1.step P (forger (h.1 :: h.2)), h.1 :: h.2)

/-- What each side reads from its successful receives is, in order, the beginning of the frames the other side sent. -/
structure SNet.Genuine (n : SNet) : Prop where
  toR : Stack.read n.rnet.net.gotR <+: n.framesI.map .ok
  toI : Stack.read n.rnet.net.gotI <+: n.framesR.map .ok

end SV2.Stack
