import Verif.Model.Noise.State
/-!
# Functions of nx-noise on slices, and those that nothing calls

`prims.rs` works on slices and panics for wrong lengths; `state.rs` has functions that the NX pattern does not need.
-/

namespace SV2.Noise

/-- `HASHLEN` and `BLOCKLEN`, consts.rs:9-10. -/
abbrev HASHLEN : Nat := 32
abbrev BLOCKLEN : Nat := 64

/-- `for count in 0..key.len() { pad[count] ^= key[count] }`, prims.rs:35-40: indexing panics beyond `BLOCKLEN`. -/
def xorInto : Bytes → Bytes → Option Bytes
  | pad, [] => some pad
  | [], _ :: _ => none
  | p :: pad, k :: key => (xorInto pad key).map ((p ^^^ k) :: ·)

/-- `hmac`, prims.rs:33-48, for any slices: the new contents of `out`.  `copy_from_slice` panics if `out` does not
have 32 bytes. -/
def hmacSlices (P : Prims) (key data out : Bytes) : NResult Bytes :=
  match xorInto (List.replicate BLOCKLEN 0x36) key, xorInto (List.replicate BLOCKLEN 0x5c) key with
  | some ipad, some opad =>
    let inner := P.hash (ipad ++ data)
    let outer := P.hash (opad ++ inner.toList)
    if out.length = HASHLEN then .ok outer.toList else .panic
  | _, _ => .panic

/-- `copy_slices!(&from[0..HASHLEN], &mut in2); in2[HASHLEN] = last`, prims.rs:60-62 and 67-69. -/
def withCounter (source : Bytes) (last : UInt8) : NResult Bytes :=
  if source.length < HASHLEN then .panic else .ok (source.take HASHLEN ++ [last])

/-- `hkdf`, prims.rs:50-71, for any number of outputs and any slices: the new contents of the three output slices. -/
def hkdfSlices (P : Prims) (chaining_key input_key_material : Bytes) (outputs : Nat) (out1 out2 out3 : Bytes) :
    NResult (Bytes × Bytes × Bytes) := do
  let temp_key ← hmacSlices P chaining_key input_key_material EMPTY.toList
  let out1 ← hmacSlices P temp_key [1] out1
  if outputs = 1 then
    return (out1, out2, out3)
  let in2 ← withCounter out1 2
  let out2 ← hmacSlices P temp_key in2 out2
  if outputs = 2 then
    return (out1, out2, out3)
  let in3 ← withCounter out2 3
  let out3 ← hmacSlices P temp_key in3 out3
  return (out1, out2, out3)

namespace CipherState

/-- `CipherState::set_nonce`, state.rs:44-46. -/
def setNonce (cs : CipherState) (n : UInt64) : CipherState := { cs with n := n }

/-- `CipherState::get_nonce`, state.rs:49-51. -/
def getNonce (cs : CipherState) : UInt64 := cs.n

end CipherState

namespace SymmetricState

/-- `SymmetricState::get_handshake_hash`, state.rs:202-204. -/
def getHandshakeHash (ss : SymmetricState) : NResult (Arr 32) := fromSliceHashlen ss.h.toList

/-- `SymmetricState::mix_key_and_hash`, state.rs:178-199. -/
def mixKeyAndHash (P : Prims) (ss : SymmetricState) (input_key_material : Bytes) : NResult SymmetricState := do
  let (out0, out1, out2) ←
    hkdfSlices P ss.ck.toList input_key_material 3 EMPTY.toList EMPTY.toList EMPTY.toList
  let ck ← fromSliceHashlen out0
  let ss := { ss with ck := ck }
  let ss := ss.mixHash P out1
  let k ← fromSliceHashlen out2
  return { ss with cs := CipherState.fromKey k }

end SymmetricState

end SV2.Noise
