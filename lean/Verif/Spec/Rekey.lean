import Verif.Spec.Noise
/-!
# Two sessions that rekey while messages are under way

The programs on both sides call `rekey_local_cipherstate` and `rekey_remote_cipherstate` whenever they like.
-/

namespace SV2.Noise

/-- What can happen: a send or a delivery, or one side calls one of the two rekey functions. -/
inductive RAct where
  | net (act : Act)
  | rekeyI (remote : Bool)
  | rekeyR (remote : Bool)

/-- Two sessions, what happened so far, and when they rekeyed. -/
structure RNet where
  net : Net
  /-- How often each side has rekeyed. -/
  rekeysI : Nat := 0
  rekeysR : Nat := 0
  /-- For each message the initiator sent: how often it had rekeyed before. -/
  sentAt : List Nat := []
  /-- For each message the responder accepted: how often it had rekeyed before. -/
  gotAt : List Nat := []

/-- The session after a call of one of the two functions. -/
def NoiseSession.rekeyed (P : Prims) (s : NoiseSession) (remote : Bool) : NoiseSession :=
  if remote then s.rekeyRemote P else s.rekeyLocal P

def RNet.step (P : Prims) (n : RNet) : RAct → RNet
  | .net act =>
    let m := n.net.step P act
    { n with
      net := m
      sentAt := n.sentAt ++ List.replicate (m.sentI.length - n.net.sentI.length) n.rekeysI
      gotAt := n.gotAt ++ List.replicate ((accepted m.gotR).length - (accepted n.net.gotR).length) n.rekeysR }
  | .rekeyI remote => { n with net := { n.net with i := n.net.i.rekeyed P remote }, rekeysI := n.rekeysI + 1 }
  | .rekeyR remote => { n with net := { n.net with r := n.net.r.rekeyed P remote }, rekeysR := n.rekeysR + 1 }

def RNet.run (P : Prims) (n : RNet) (acts : List RAct) : RNet := acts.foldl (RNet.step P) n

/-- The sends and deliveries, without the rekeying. -/
def RAct.acts (acts : List RAct) : List Act :=
  acts.filterMap fun a => match a with | .net act => some act | _ => none

/-- The key after rekeying `e` times: each time 32 zero bytes are encrypted, with twelve bytes 0xFF as nonce. -/
def epochKey (P : Prims) (key : Arr 32) : Nat → Arr 32
  | 0 => key
  | e + 1 => ⟨(P.aeadSeal (epochKey P key e) (Arr.replicate 12 0xFF) [] NX.zeros.toList).1, by
      rw [P.seal_length]; rfl⟩

/-- A network that delivers in order, without loss or change, to a responder that rekeys at the same places in the
sequence of messages as the initiator did. -/
def RNet.Matched (P : Prims) : RNet → List RAct → Prop
  | _, [] => True
  | n, act :: acts =>
    (match act with
      | .net (.toR wire) => (n.net.sentI.map (·.2))[n.net.gotR.length]? = some wire ∧
          n.sentAt[n.net.gotR.length]? = some n.rekeysR
      | .net (.toI wire) => (n.net.sentR.map (·.2))[n.net.gotI.length]? = some wire
      | _ => True) ∧ RNet.Matched P (n.step P act) acts

/-- Message number `j` that the responder accepted is a forgery: it decrypts under the key the responder had then, with
nonce `n0 + j`, but it is not what the initiator sent as message number `j` under that key. -/
def RNet.ForgedAt (P : Prims) (key : Arr 32) (n0 : Nat) (n : RNet) (j : Nat) : Prop :=
  ∃ (c : Bytes) (mac : Arr 16) (p : Bytes) (e : Nat), (acceptedWires n.net.gotR)[j]? = some (c ++ mac.toList) ∧
    n.gotAt[j]? = some e ∧ P.aeadOpen (epochKey P key e) (NX.nonce (n0 + j)) [] c mac = some p ∧
    ¬ ∃ p' e', n.net.sentI[j]? = some (p', c ++ mac.toList) ∧ n.sentAt[j]? = some e' ∧
        epochKey P key e' = epochKey P key e

end SV2.Noise
