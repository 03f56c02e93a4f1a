import Verif.Spec.Built
import Verif.Spec.Certificate
import Verif.Spec.Macro
import Verif.Spec.Laws
/-!
# Serializing to any writer: which pieces are offered, and what arrives

A value is offered to the writer in pieces, one call of `write` each.  The pieces are stated with the wire
format of `Verif.Spec.Wire`; nothing here uses the model's serializers.
-/

namespace SV2.Pieces

/-- A string goes out in two pieces: the length byte, the text. -/
def str (s : String) : List Bytes := [[UInt8.ofNat s.utf8ByteSize], s.toByteArray.data.toList]

/-- Short bytes go out in two pieces. -/
def bytes8 (b : Bytes) : List Bytes := [[UInt8.ofNat b.length], b]

/-- Medium bytes go out in two pieces. -/
def bytes16 (b : Bytes) : List Bytes := [Wire.u16 (UInt16.ofNat b.length), b]

/-- Long bytes go out in two pieces. -/
def bytes24 (b : Bytes) : List Bytes := [Wire.u24 b.length, b]

def setupConnectionMsg {all : UInt32} (m : SetupConnectionMsg all) : List Bytes :=
  [Wire.u16 m.min_version, Wire.u16 m.max_version, Wire.u32 m.flags.bits] ++ str m.endpoint_host.data ++
  [Wire.u16 m.endpoint_port] ++ str m.vendor.data ++ str m.hardware_version.data ++ str m.firmware.data ++
  str m.device_id.data

def setupConnection : SetupConnection → List Bytes
  | .mining v => [0] :: setupConnectionMsg v
  | .jobNegotiation v => [1] :: setupConnectionMsg v

def setupConnectionSuccess {all : UInt32} (m : SetupConnectionSuccess all) : List Bytes :=
  [Wire.u16 m.used_version, Wire.u32 m.flags.bits]

def setupConnectionError {all : UInt32} (m : SetupConnectionError all) : List Bytes :=
  Wire.u32 m.flags.bits :: str (Wire.setupErrorString m.error_code)

def channelEndpointChanged (m : ChannelEndpointChanged) : List Bytes := [Wire.u32 m.channel_id]

def openStandardMiningChannel (m : OpenStandardMiningChannel) : List Bytes :=
  [Wire.u32 m.request_id] ++ str m.user_identity.data ++
  [Wire.u32 m.nominal_hash_rate.bits, m.max_target.val.toList]

def openStandardMiningChannelSuccess (m : OpenStandardMiningChannelSuccess) : List Bytes :=
  [Wire.u32 m.request_id, Wire.u32 m.channel_id, m.target.val.toList] ++
  bytes8 m.extranonce_prefix.data ++ [Wire.u32 m.group_channel_id]

def openExtendedMiningChannel (m : OpenExtendedMiningChannel) : List Bytes :=
  [Wire.u32 m.request_id] ++ str m.user_identity.data ++
  [Wire.u32 m.nominal_hash_rate.bits, m.max_target.val.toList, Wire.u16 m.min_extranonce_size]

def openExtendedMiningChannelSuccess (m : OpenExtendedMiningChannelSuccess) : List Bytes :=
  [Wire.u32 m.request_id, Wire.u32 m.channel_id, m.target.val.toList, Wire.u16 m.extranonce_size] ++
  bytes8 m.extranonce_prefix.data

def openMiningChannelError {kind : ChannelKind} (m : OpenMiningChannelError kind) : List Bytes :=
  Wire.u32 m.request_id :: str (Wire.openErrorString m.error_code)

def updateChannel (m : UpdateChannel) : List Bytes :=
  [Wire.u32 m.channel_id, Wire.u32 m.nominal_hash_rate.bits, m.max_target.val.toList]

/-- What the authority signs: four pieces. -/
def certBytes (version : UInt16) (valid_from not_valid_after : UInt32) (key : StaticPublicKey) :
    List Bytes :=
  [Wire.u16 version, Wire.u32 valid_from, Wire.u32 not_valid_after, key.toList]

def signatureNoiseMessage {E : SigScheme} (m : SignatureNoiseMessage E) : List Bytes :=
  [Wire.u16 m.version, Wire.u32 m.valid_from, Wire.u32 m.not_valid_after, m.signature.bytes.toList]

/-- The three pieces before a frame's payload. -/
def frameHeader (m : Message) : List Bytes :=
  [[0, if Wire.hasChannel (Wire.msgNumber m.message_type) then 0x80 else 0],
   [UInt8.ofNat (Wire.msgNumber m.message_type)], Wire.u24 m.payload.length]

/-- The pieces of one field of a declared message. -/
def field : (t : Macro.Ty) → t.Val → List Bytes
  | .str0_32, x => str (Str0.data x)
  | .str0_255, x => str (Str0.data x)
  | .b0_31, x => bytes8 (B0.data x)
  | .b0_32, x => bytes8 (B0.data x)
  | .b0_255, x => bytes8 (B0.data x)
  | .b0_64K, x => bytes16 (B0.data x)
  | .b0_16M, x => bytes24 (B0.data x)
  | .setupConnectionErrorCode, x => str (Wire.setupErrorString x)
  | .openMiningChannelErrorCode, x => str (Wire.openErrorString x)
  | t, x => [t.wire x]

/-- The pieces of the fields of a declared message. -/
def fields : (ts : List Macro.Ty) → Macro.Fields ts → List Bytes
  | [], _ => []
  | t :: ts, (x, xs) => field t x ++ fields ts xs

end SV2.Pieces

namespace SV2.Law

/-- The writer is offered the pieces one after the other, a call each, and every call returns `Ok`; `took`
lists how many bytes the calls said they took. -/
inductive Offered {σ : Type} (w : Writer σ) : List Bytes → List Nat → σ → σ → Prop
  | done (s : σ) : Offered w [] [] s s
  | next {p : Bytes} {ps : List Bytes} {n : Nat} {ns : List Nat} {s s1 s2 : σ} :
      w.write p s = (.ok n, s1) → Offered w ps ns s1 s2 → Offered w (p :: ps) (n :: ns) s s2

/-- The calls for the first pieces return `Ok`, the call for the next one does not: it ends with `out`. -/
def StopsAt {σ : Type} (w : Writer σ) (pieces : List Bytes) (s : σ) (out : Out Error Nat) (s' : σ) : Prop :=
  (∀ n, out ≠ .ok n) ∧
  ∃ before p after took s1, pieces = before ++ p :: after ∧ Offered w before took s s1 ∧
    w.write p s1 = (out, s')

/-- `m` is offered to every writer in these pieces: the call returns the size of the whole if no call of
`write` fails, and otherwise ends as the first failing call does; nothing else touches the writer. -/
structure WritesBy {α : Type} [Serializable α] (m : α) (pieces : List Bytes) : Prop where
  whole : serialize m = .ok pieces.flatten
  ok : ∀ (σ : Type) (w : Writer σ) (s s' : σ) (n : Nat), Serializable.ser w m s = (.ok n, s') ↔
    n = pieces.flatten.length ∧ ∃ took, Offered w pieces took s s'
  stops : ∀ (σ : Type) (w : Writer σ) (s s' : σ) (out : Out Error Nat), (∀ n, out ≠ .ok n) →
    (Serializable.ser w m s = (out, s') ↔ StopsAt w pieces s out s')

/-- The contract of `io::Write` for a writer whose bytes `got` can be seen: a call that returns `Ok(n)` has
taken the first `n` bytes of the buffer, a call that returns an error has taken nothing. -/
structure Stream {σ : Type} (w : Writer σ) (got : σ → Bytes) : Prop where
  took : ∀ b s n s', w.write b s = (.ok n, s') → n ≤ b.length ∧ got s' = got s ++ b.take n
  failed : ∀ b s e s', w.write b s = (.err e, s') → got s' = got s

/-- The beginnings of the pieces, of the given lengths. -/
def cut : List Bytes → List Nat → List Bytes
  | p :: ps, n :: ns => p.take n :: cut ps ns
  | _, _ => []

/-- Takes at most `limit` bytes a call and never fails, like a socket with little room in its buffer. -/
def limitWriter (limit : Nat) : Writer Bytes where
  write b := fun s => (.ok (min b.length limit), s ++ b.take limit)

/-- Takes everything, but fails with `e` when fewer than so many bytes of room are left; the state is what
has arrived and the room. -/
def fullWriter (e : Error) : Writer (Bytes × Nat) where
  write b := fun s => if b.length ≤ s.2 then (.ok b.length, (s.1 ++ b, s.2 - b.length)) else (.err e, s)

end SV2.Law
