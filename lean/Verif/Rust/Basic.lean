/-!
# Rust-level vocabulary of the model

Outcomes, effects and fixed-size integers, as the modelled Rust code uses them.
-/

namespace SV2

/-- A `[u8]` / `Vec<u8>`.  Lengths are `Nat`; where a length matters (`usize` arithmetic, `as u32`
casts) the model inserts the corresponding check or truncation explicitly. -/
abbrev Bytes := List UInt8

/-- The three ways a Rust call can end: `Ok(a)`, `Err(e)`, or a panic (index out of bounds, arithmetic
overflow with overflow checks on, `unwrap` on an error).  Rust's `Result<T, E>` is the first two. -/
inductive Out (ε : Type) (α : Type) where
  | ok (a : α)
  | err (e : ε)
  | panic
  deriving Repr, DecidableEq

namespace Out

/-- The call returned (`Ok` or `Err`), it did not panic. -/
def Returns {ε α : Type} (o : Out ε α) : Prop := o ≠ .panic

/-- `Result::is_ok`. -/
def isOk {ε α : Type} : Out ε α → Bool
  | .ok _ => true
  | _ => false

/-- The `?` operator on a plain `Result` (no state). -/
def bind {ε α β : Type} : Out ε α → (α → Out ε β) → Out ε β
  | .ok a, f => f a
  | .err e, _ => .err e
  | .panic, _ => .panic

instance {ε : Type} : Monad (Out ε) where
  pure := .ok
  bind := Out.bind

/-- `Result::map_err` / the `From` conversion that `?` applies to the error. -/
def mapErr {ε ε' α : Type} (f : ε → ε') : Out ε α → Out ε' α
  | .ok a => .ok a
  | .err e => .err (f e)
  | .panic => .panic

end Out

/-- A Rust function that mutates a state `σ` through `&mut` and returns a `Result`.  The new state is
returned on every path, also on `Err` and on a panic, because Rust does not roll back. -/
def SM (σ ε α : Type) : Type := σ → Out ε α × σ

namespace SM

/-- Sequencing with `?`: stop at the first `Err` or panic, keeping the state reached so far. -/
def bind {σ ε α β : Type} (x : SM σ ε α) (f : α → SM σ ε β) : SM σ ε β := fun s =>
  match x s with
  | (.ok a, s') => f a s'
  | (.err e, s') => (.err e, s')
  | (.panic, s') => (.panic, s')

instance {σ ε : Type} : Monad (SM σ ε) where
  pure a := fun s => (.ok a, s)
  bind := SM.bind

/-- A state-independent `Result` used inside a mutating function. -/
def lift {σ ε α : Type} (o : Out ε α) : SM σ ε α := fun s => (o, s)

/-- `return Err(e)`. -/
def fail {σ ε α : Type} (e : ε) : SM σ ε α := fun s => (.err e, s)

/-- A panic. -/
def panic {σ ε α : Type} : SM σ ε α := fun s => (.panic, s)

end SM

/-- `uN::to_le_bytes`, as `n` bytes, for the value `v` of an unsigned integer of `n` bytes
(Rust std).  Least significant byte first. -/
def toLE : (n : Nat) → (v : Nat) → Bytes
  | 0, _ => []
  | n + 1, v => UInt8.ofNat (v % 256) :: toLE n (v / 256)

/-- `uN::from_le_bytes` (Rust std), as a natural number. -/
def fromLE : Bytes → Nat
  | [] => 0
  | b :: bs => b.toNat + 256 * fromLE bs

/-- A fixed-size array `[u8; n]`. -/
structure Arr (n : Nat) where
  toList : Bytes
  len : toList.length = n
  deriving DecidableEq

instance {n : Nat} : Repr (Arr n) := ⟨fun a p => reprPrec a.toList p⟩

/-- `[b; n]`. -/
def Arr.replicate (n : Nat) (b : UInt8) : Arr n := ⟨List.replicate n b, by simp⟩

/-- `slice.try_into()` / `copy_from_slice` of a slice into a `[u8; n]`: defined only when the slice has
exactly `n` bytes. -/
def Arr.ofSlice? (n : Nat) (s : Bytes) : Option (Arr n) :=
  if h : s.length = n then some ⟨s, h⟩ else none

/-- `String::as_bytes`.  A Rust `String` is modelled by Lean's `String`: both are exactly the finite
sequences of Unicode scalar values, stored as (valid) UTF-8 bytes. -/
def strBytes (s : String) : Bytes := s.toByteArray.data.toList

/-- `String::from_utf8`: succeeds exactly on valid UTF-8 (Lean core's `String.fromUTF8?`, specified by
`ByteArray.IsValidUTF8`). -/
def fromUtf8 (b : Bytes) : Option String := String.fromUTF8? ⟨b.toArray⟩

end SV2
