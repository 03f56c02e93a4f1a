import Verif.Model.Types
/-!
# Comparisons and conversions of the wire types with plain Rust values

`stratumv2/src/types/{strings,bytes,fixed}.rs`: the `PartialEq` and `From` implementations between the
wire types and `String`, `Vec<u8>`, `u32`, `usize`, `[u8; 32]`.  The same-type `==` comes from
`derive(PartialEq)` (strings.rs:8, bytes.rs:12, fixed.rs:9, 87) and compares every field; in the model it
is equality of the structures.
-/

namespace SV2

/-- `PartialEq<String> for STR0_*`, types/strings.rs:36-40. -/
def Str0.eqString {max : Nat} (x : Str0 max) (other : String) : Bool := x.data == other

/-- `PartialEq<STR0_*> for String`, types/strings.rs:43-47. -/
def Str0.stringEq {max : Nat} (s : String) (other : Str0 max) : Bool := s == other.data

/-- `From<STR0_*> for String`, types/strings.rs:50-54. -/
def Str0.toString {max : Nat} (x : Str0 max) : String := x.data

/-- `PartialEq<Vec<u8>> for B0_*`, types/bytes.rs:41-45. -/
def B0.eqVec {L : Type} {max : Nat} (x : B0 L max) (other : Bytes) : Bool := x.data == other

/-- `PartialEq<B0_*> for Vec<u8>`, types/bytes.rs:48-52. -/
def B0.vecEq {L : Type} {max : Nat} (v : Bytes) (other : B0 L max) : Bool := v == other.data

/-- `From<B0_*> for Vec<u8>`, types/bytes.rs:55-59. -/
def B0.toVec {L : Type} {max : Nat} (x : B0 L max) : Bytes := x.data

/-- `PartialEq<u32> for U24`, types/fixed.rs:22-26. -/
def U24.eqU32 (x : U24) (other : UInt32) : Bool := x.val == other

/-- `PartialEq<U24> for u32`, types/fixed.rs:28-32. -/
def U24.u32Eq (v : UInt32) (other : U24) : Bool := v == other.val

/-- `From<U24> for u32`, types/fixed.rs:34-38. -/
def U24.toU32 (x : U24) : UInt32 := x.val

/-- `From<U24> for usize`, types/fixed.rs:48-52. -/
def U24.toUsize (x : U24) : Nat := x.val.toNat

/-- `PartialEq<[u8; 32]> for U256`, types/fixed.rs:105-109. -/
def U256.eqArray (x : U256) (other : Arr 32) : Bool := x.val == other

/-- `PartialEq<U256> for [u8; 32]`, types/fixed.rs:111-115. -/
def U256.arrayEq (a : Arr 32) (other : U256) : Bool := a == other.val

/-- `From<U256> for [u8; 32]`, types/fixed.rs:117-121. -/
def U256.toArray (x : U256) : Arr 32 := x.val

/-- `From<[u8; 32]> for U256`, types/fixed.rs:123-127. -/
def U256.fromArray (a : Arr 32) : U256 := ⟨a⟩

end SV2
