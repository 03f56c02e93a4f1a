import Verif.Model.Codec
/-!
# `stratumv2/src/types`: primitives, `U24`, `U256`, `STR0_*`, `B0_*`, bitflags, error codes
-/

namespace SV2

/-! ## primitives.rs -/

/-- An `f32`, as its 32 bits.  `to_le_bytes`/`from_le_bytes` move the bits (Rust std: `to_bits`,
`from_bits`). -/
structure F32 where
  bits : UInt32
  deriving Repr, DecidableEq

/-- IEEE 754 NaN: exponent all ones and a non-zero fraction. -/
def F32.isNaN (x : F32) : Bool :=
  (x.bits &&& 0x7F800000) == 0x7F800000 && (x.bits &&& 0x007FFFFF) != 0

/-- IEEE 754 zero, of either sign. -/
def F32.isZero (x : F32) : Bool := (x.bits &&& 0x7FFFFFFF) == 0

/-- Rust's `==` on `f32` (IEEE 754): false when an operand is NaN, `-0.0 == 0.0`, otherwise equality of
the bits. -/
def F32.rustEq (x y : F32) : Bool :=
  !x.isNaN && !y.isNaN && ((x.isZero && y.isZero) || x.bits == y.bits)

/-- types/primitives.rs:7-13. -/
instance : Serializable Bool where
  ser w b := writeBuf w (if b then [1] else [0])

/-- types/primitives.rs:15-21. -/
instance : Serializable UInt8 where
  ser w x := writeBuf w (toLE 1 x.toNat)

/-- types/primitives.rs:23-29. -/
instance : Serializable UInt16 where
  ser w x := writeBuf w (toLE 2 x.toNat)

/-- types/primitives.rs:31-37. -/
instance : Serializable UInt32 where
  ser w x := writeBuf w (toLE 4 x.toNat)

/-- types/primitives.rs:39-45. -/
instance : Serializable F32 where
  ser w x := writeBuf w (toLE 4 x.bits.toNat)

/-- types/primitives.rs:53-60: only the least significant bit counts. -/
instance : Deserializable Bool where
  deser := do
    let buffer ← readExact 1
    pure (fromLE buffer.toList &&& 1 == 1)

/-- types/primitives.rs:62-69. -/
instance : Deserializable UInt8 where
  deser := do
    let buffer ← readExact 1
    pure (UInt8.ofNat (fromLE buffer.toList))

/-- types/primitives.rs:71-78. -/
instance : Deserializable UInt16 where
  deser := do
    let buffer ← readExact 2
    pure (UInt16.ofNat (fromLE buffer.toList))

/-- types/primitives.rs:80-87. -/
instance : Deserializable UInt32 where
  deser := do
    let buffer ← readExact 4
    pure (UInt32.ofNat (fromLE buffer.toList))

/-- types/primitives.rs:89-96. -/
instance : Deserializable F32 where
  deser := do
    let buffer ← readExact 4
    pure ⟨UInt32.ofNat (fromLE buffer.toList)⟩

/-! ## fixed.rs -/

/-- `U24`, types/fixed.rs:9-10.  The field is public: a `U24` above 2^24-1 can be written down. -/
structure U24 where
  val : UInt32
  deriving Repr, DecidableEq

/-- `U24::MAX`, types/fixed.rs:14. -/
def U24.MAX : UInt32 := 0xFFFFFF

/-- `TryFrom<usize> for U24`, types/fixed.rs:54-66.  `value as u32` keeps the low 32 bits. -/
def U24.tryFromUsize (value : Nat) : Result U24 :=
  if value > 2 ^ 24 - 1 then .err (.requirementError "U24 cannot be greater than 2^24-1")
  else .ok ⟨UInt32.ofNat value⟩

/-- `U24::new` and `TryFrom<u32> for U24`, types/fixed.rs:17-19, 40-46. -/
def U24.new (value : UInt32) : Result U24 := U24.tryFromUsize value.toNat

/-- types/fixed.rs:68-76: three bytes padded with a zero byte to a `u32`. -/
instance : Deserializable U24 where
  deser := do
    let s ← readExact 3
    SM.lift (U24.new (UInt32.ofNat (fromLE (s.toList ++ [0]))))

/-- types/fixed.rs:78-83: the first three of the four little-endian bytes. -/
instance : Serializable U24 where
  ser w x := do
    let _ ← w.write ((toLE 4 x.val.toNat).take 3)
    pure 3

/-- `U256`, types/fixed.rs:87-88. -/
structure U256 where
  val : Arr 32
  deriving Repr, DecidableEq

/-- types/fixed.rs:90-96. -/
instance : Deserializable U256 where
  deser := do
    let buffer ← readExact 32
    pure ⟨buffer⟩

/-- types/fixed.rs:98-103. -/
instance : Serializable U256 where
  ser w x := do
    let _ ← w.write x.val.toList
    pure 32

/-! ## strings.rs -/

/-- A `STR0_*` type made by `impl_sized_STR0!` with `MAX_LENGTH = max`, types/strings.rs:8-12.  Both
fields are public. -/
structure Str0 (max : Nat) where
  length : UInt8
  data : String
  deriving Repr, DecidableEq

/-- types/strings.rs:183-184. -/
abbrev STR0_32 := Str0 32
/-- types/strings.rs:183-184. -/
abbrev STR0_255 := Str0 255

/-- `STR0::new`, types/strings.rs:19-32.  `value.len()` is the length in bytes, `as u8` truncates. -/
def Str0.new {max : Nat} (value : String) : Result (Str0 max) :=
  if (strBytes value).length > max then
    .err (.requirementError "string size cannot be greater than MAX_LENGTH")
  else .ok { length := UInt8.ofNat (strBytes value).length, data := value }

/-- types/strings.rs:58-69: length byte, bytes, UTF-8 check, then `new`. -/
instance {max : Nat} : Deserializable (Str0 max) where
  deser := do
    let header_length ← Deserializable.deser (α := UInt8)
    let data_buffer ← ByteParser.nextBy header_length.toNat
    match fromUtf8 data_buffer with
    | some s => SM.lift (Str0.new s)
    | none => SM.fail .fromUtf8Error

/-- types/strings.rs:72-81.  The count returned uses the `length` field, not `data`. -/
instance {max : Nat} : Serializable (Str0 max) where
  ser w x := do
    let header_length ← Serializable.ser w x.length
    let _ ← w.write (strBytes x.data)
    pure (header_length + x.length.toNat)

/-! ## bytes.rs -/

/-- What `impl_sized_B0!` asks of `$length_type`: `TryFrom<usize>` (followed by `unwrap`) and
`Into<usize>`, types/bytes.rs:33-34, 67. -/
class LengthType (L : Type) extends Serializable L, Deserializable L where
  tryFromUsize : Nat → Option L
  toUsize : L → Nat

/-- `u8: TryFrom<usize>` (Rust std). -/
instance : LengthType UInt8 where
  tryFromUsize n := if n < 2 ^ 8 then some (UInt8.ofNat n) else none
  toUsize x := x.toNat

/-- `u16: TryFrom<usize>` (Rust std). -/
instance : LengthType UInt16 where
  tryFromUsize n := if n < 2 ^ 16 then some (UInt16.ofNat n) else none
  toUsize x := x.toNat

/-- `U24: TryFrom<usize>` and `From<U24> for usize`, types/fixed.rs:48-66. -/
instance : LengthType U24 where
  tryFromUsize n := match U24.tryFromUsize n with
    | .ok u => some u
    | _ => none
  toUsize x := x.val.toNat

/-- A `B0_*` type made by `impl_sized_B0!` with length type `L` and `MAX_LENGTH = max`,
types/bytes.rs:12-16.  Both fields are public. -/
structure B0 (L : Type) (max : Nat) where
  length : L
  data : Bytes
  deriving Repr, DecidableEq

/-- types/bytes.rs:211. -/
abbrev B0_31 := B0 UInt8 31
/-- types/bytes.rs:212. -/
abbrev B0_32 := B0 UInt8 32
/-- types/bytes.rs:213: `u8::MAX as usize`. -/
abbrev B0_255 := B0 UInt8 255
/-- types/bytes.rs:214: `u16::MAX as usize`. -/
abbrev B0_64K := B0 UInt16 65535
/-- types/bytes.rs:215: `U24::MAX as usize`. -/
abbrev B0_16M := B0 U24 16777215

/-- `B0::new`, types/bytes.rs:24-37.  `try_into().unwrap()` panics if the length does not fit. -/
def B0.new {L : Type} [LengthType L] {max : Nat} (value : Bytes) : Result (B0 L max) :=
  if value.length > max then
    .err (.requirementError "bytes size cannot be greater than MAX_LENGTH")
  else match LengthType.tryFromUsize value.length with
    | some l => .ok { length := l, data := value }
    | none => .panic

/-- types/bytes.rs:62-71. -/
instance {L : Type} [LengthType L] {max : Nat} : Deserializable (B0 L max) where
  deser := do
    let header_length ← Deserializable.deser (α := L)
    let bytes ← ByteParser.nextBy (LengthType.toUsize header_length)
    SM.lift (B0.new bytes)

/-- types/bytes.rs:74-83. -/
instance {L : Type} [LengthType L] {max : Nat} : Serializable (B0 L max) where
  ser w x := do
    let header_length ← Serializable.ser w x.length
    let _ ← w.write x.data
    pure (header_length + x.data.length)

/-! ## flags.rs and the `bitflags!` structs -/

/-- A struct made by `bitflags!` (bitflags 1.2) over `u32`, whose declared flags have union `all`.  The
`bits` field is private in Rust and every safe constructor keeps it within `all`; the model carries this
as a field (the unsafe `from_bits_unchecked` is not modelled). -/
structure Flags (all : UInt32) where
  bits : UInt32
  known : bits &&& ~~~all = 0
  deriving Repr, DecidableEq

/-- `from_bits` (bitflags 1.2): `Some` exactly when no bit outside `all` is set. -/
def Flags.fromBits {all : UInt32} (bits : UInt32) : Option (Flags all) :=
  if h : bits &&& ~~~all = 0 then some ⟨bits, h⟩ else none

/-- `empty()` (bitflags 1.2). -/
def Flags.empty (all : UInt32) : Flags all := ⟨0, by simp⟩

/-- `all()` (bitflags 1.2). -/
def Flags.full (all : UInt32) : Flags all := ⟨all, by simp⟩

/-- `is_empty` (bitflags 1.2). -/
def Flags.isEmpty {all : UInt32} (f : Flags all) : Bool := f.bits == 0

/-- `self | other` (bitflags 1.2). -/
def Flags.union {all : UInt32} (f g : Flags all) : Flags all :=
  ⟨f.bits ||| g.bits, by
    have h : (f.bits ||| g.bits) &&& ~~~all = (f.bits &&& ~~~all) ||| (g.bits &&& ~~~all) := by
      apply UInt32.toBitVec_inj.mp
      simp only [UInt32.toBitVec_or, UInt32.toBitVec_and]
      exact BitVec.and_or_distrib_right
    rw [h, f.known, g.known]; rfl⟩

/-- `contains` (bitflags 1.2). -/
def Flags.contains {all : UInt32} (f g : Flags all) : Bool := f.bits &&& g.bits == g.bits

/-- types/flags.rs:17-21. -/
instance {all : UInt32} : Serializable (Flags all) where
  ser w f := Serializable.ser w f.bits

/-- types/flags.rs:23-27. -/
instance {all : UInt32} : Deserializable (Flags all) where
  deser := do
    let bits ← Deserializable.deser (α := UInt32)
    match Flags.fromBits bits with
    | some f => pure f
    | none => SM.fail .unknownFlags

/-! ## error_code.rs -/

/-- What `impl_error_code_enum!` generates from its table `variant => string`, types/error_code.rs:14-84:
`toStr` is `From<&$name> for String` (53-59) and `fromStr` is `FromStr` (26-35), a `match` over the same
strings. -/
class ErrorCode (α : Type) where
  toStr : α → String
  fromStr : String → Result α

/-- `From<&$name> for STR0_255`, types/error_code.rs:61-69. -/
def ErrorCode.toStr0 {α : Type} [ErrorCode α] (c : α) : STR0_255 :=
  { length := UInt8.ofNat (strBytes (ErrorCode.toStr c)).length, data := ErrorCode.toStr c }

/-- types/error_code.rs:71-75. -/
def ErrorCode.ser {α : Type} [ErrorCode α] {σ : Type} (w : Writer σ) (c : α) : SM σ Error Nat :=
  Serializable.ser w (ErrorCode.toStr0 c)

/-- types/error_code.rs:77-83, through `TryFrom<STR0_255>` (45-51) and `TryFrom<String>` (37-43). -/
def ErrorCode.deser {α : Type} [ErrorCode α] : ParseM α := do
  let error_code ← Deserializable.deser (α := STR0_255)
  SM.lift (ErrorCode.fromStr error_code.data)

end SV2
