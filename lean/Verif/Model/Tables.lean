import Verif.Model.Messages
/-!
# The table macros for any table

`impl_error_code_enum!` (types/error_code.rs:14-84) and `impl_enum_message_types!` (types/message_type.rs:43-72), as
definitions that take the table.  `Props/Tables.lean` shows that the enums written out in `Messages.lean` and
`Frame.lean` are expansions of them.
-/

namespace SV2.Tables

/-- The rows `variant => string` given to `impl_error_code_enum!`, for an enum with variants `V`, types/error_code.rs:15.
The compiler refuses a table that leaves out a variant (the `match` at 20-22 and 55-57 must be exhaustive); a string
literal with its length byte fits in memory.  `Display` (18-24) is `write!(f, $str)`, so the compiler also refuses
strings with unmatched braces; that is not modelled. -/
structure CodeDecl (V : Type) where
  rows : List (V × String)
  exhaustive : ∀ v, ∃ s, (v, s) ∈ rows
  inMemory : ∀ row ∈ rows, row.2.utf8ByteSize + 1 < 2 ^ 63

variable {V : Type} [DecidableEq V]

/-- A value of the enum. -/
structure Code (d : CodeDecl V) where
  variant : V
  deriving DecidableEq

/-- `From<&$name> for String`, types/error_code.rs:53-59: the first arm for the variant. -/
def toStr (d : CodeDecl V) (v : V) : String :=
  match d.rows.find? (fun row => row.1 = v) with
  | some row => row.2
  | none => ""

/-- `FromStr`, types/error_code.rs:26-35: the first arm whose string matches. -/
def fromStr (d : CodeDecl V) (s : String) : Result (Code d) :=
  match d.rows.find? (fun row => row.2 = s) with
  | some row => .ok ⟨row.1⟩
  | none => .err .unknownErrorCode

/-- types/error_code.rs:14-84. -/
instance (d : CodeDecl V) : ErrorCode (Code d) where
  toStr c := toStr d c.variant
  fromStr := fromStr d

/-- types/error_code.rs:71-75. -/
instance (d : CodeDecl V) : Serializable (Code d) := ⟨ErrorCode.ser⟩
/-- types/error_code.rs:77-83. -/
instance (d : CodeDecl V) : Deserializable (Code d) := ⟨ErrorCode.deser⟩

/-- The rows `variant => (ext_type, msg_type, channel_bit)` given to `impl_enum_message_types!`,
types/message_type.rs:44. -/
structure TypeDecl (V : Type) where
  rows : List (V × UInt16 × UInt8 × Bool)
  exhaustive : ∀ v, ∃ r, (v, r) ∈ rows

/-- The first arm for the variant in `ext_type`, `msg_type` and `channel_bit`, types/message_type.rs:53-69. -/
def TypeDecl.row (d : TypeDecl V) (v : V) : UInt16 × UInt8 × Bool :=
  match d.rows.find? (fun row => row.1 = v) with
  | some row => row.2
  | none => (0, 0, false)

/-- `ext_type`, types/message_type.rs:53-57. -/
def TypeDecl.extType (d : TypeDecl V) (v : V) : UInt16 := (d.row v).1
/-- `msg_type`, types/message_type.rs:59-63. -/
def TypeDecl.msgType (d : TypeDecl V) (v : V) : UInt8 := (d.row v).2.1
/-- `channel_bit`, types/message_type.rs:65-69. -/
def TypeDecl.channelBit (d : TypeDecl V) (v : V) : Bool := (d.row v).2.2

/-- `new`, types/message_type.rs:46-51: the first arm whose pair matches. -/
def TypeDecl.new (d : TypeDecl V) (ext_type : UInt16) (msg_type : UInt8) : Result V :=
  match d.rows.find? (fun row => row.2.1 = ext_type ∧ row.2.2.1 = msg_type) with
  | some row => .ok row.1
  | none => .err .unknownMessageType

end SV2.Tables
