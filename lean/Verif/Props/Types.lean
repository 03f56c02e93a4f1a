import Verif.Lemmas.Laws
/-!
# C01-C10: primitives, strings, byte strings, flags, error codes, message types, parser
-/

namespace SV2
open Law

/-! ## C01 -/

/-- The value is written as `n` little-endian bytes of value `v`, and read back. -/
def WritesLE {α : Type} [Serializable α] [Deserializable α] (x : α) (n v : Nat) : Prop :=
  ∃ e, RoundTrips x e ∧ e.length = n ∧ Wire.leValue e = v

theorem bool_reads (b : Bool) : Reads (Deserializable.deser (α := Bool)) [if b then 1 else 0] b := by
  refine Reads.bind_last (Reads.readExact ⟨[if b then 1 else 0], rfl⟩) ?_
  cases b <;> rfl

theorem bool_safe : Safe (Deserializable.deser (α := Bool)) :=
  Safe.bind (Safe.readExact (by decide)) fun _ => Safe.pure _

theorem C01_bool (b : Bool) : WritesLE b 1 (if b then 1 else 0) := by
  refine ⟨[if b then 1 else 0], ⟨?_, (bool_reads b).deserialize, (bool_reads b).at⟩, rfl, ?_⟩
  · cases b <;> rfl
  · cases b <;> decide

theorem C01_u8 (x : UInt8) : WritesLE x 1 x.toNat :=
  ⟨_, lawful_u8.roundTrips x trivial, rfl, by
    rw [leValue_eq, ← wire_u8, fromLE_toLE 1 _ (by have := x.toNat_lt; omega)]⟩

theorem C01_u16 (x : UInt16) : WritesLE x 2 x.toNat :=
  ⟨_, lawful_u16.roundTrips x trivial, rfl, by
    rw [leValue_eq, ← wire_u16, fromLE_toLE 2 _ (by have := x.toNat_lt; omega)]⟩

theorem C01_u32 (x : UInt32) : WritesLE x 4 x.toNat :=
  ⟨_, lawful_u32.roundTrips x trivial, rfl, by
    rw [leValue_eq, ← wire_u32, fromLE_toLE 4 _ (by have := x.toNat_lt; omega)]⟩

theorem C01_f32 (x : F32) : WritesLE x 4 x.bits.toNat :=
  ⟨_, lawful_f32.roundTrips x trivial, rfl, by
    rw [leValue_eq, ← wire_u32, fromLE_toLE 4 _ (by have := x.bits.toNat_lt; omega)]⟩

/-- A bool is read from any byte by its lowest bit, so bools are not canonical on the wire. -/
theorem C01_bool_any_byte (b : UInt8) (rest : Bytes) (h : IsSlice ([b] ++ rest)) :
    deserialize Bool ([b] ++ rest) = .ok (decide (b.toNat % 2 = 1)) := by
  have : Reads (Deserializable.deser (α := Bool)) [b] (decide (b.toNat % 2 = 1)) := by
    refine Reads.bind_last (Reads.readExact ⟨[b], rfl⟩) ?_
    simp only [fromLE, Nat.mul_zero, Nat.add_zero, Nat.and_one_is_mod]
    rfl
  exact this.deserialize rest h

/-- Concrete: 0x1234 is written as 34 12 and read back from 34 12 ff. -/
example : serialize (0x1234 : UInt16) = .ok [0x34, 0x12] ∧
    deserialize UInt16 [0x34, 0x12, 0xff] = .ok 0x1234 := ⟨rfl, rfl⟩

/-! ## C02 -/

/-- `U24::new` accepts exactly the values below 2^24, which are those up to `U24::MAX`, and keeps them. -/
theorem C02_new (v : UInt32) :
    (v.toNat ≤ 2 ^ 24 - 1 → U24.new v = .ok ⟨v⟩) ∧
    (¬ v.toNat ≤ 2 ^ 24 - 1 → ∃ msg, U24.new v = .err (.requirementError msg)) ∧
    (U24.new v = .ok ⟨v⟩ ↔ v ≤ U24.MAX) := by
  refine ⟨fun h => U24.new_ok (by omega), fun h => ⟨_, U24.new_err (by omega)⟩, ?_⟩
  rw [UInt32.le_iff_toNat_le, show U24.MAX.toNat = 2 ^ 24 - 1 from rfl]
  constructor
  · intro h
    by_cases hv : v.toNat < 2 ^ 24
    · omega
    · rw [U24.new_err (by omega)] at h
      cases h
  · exact fun h => U24.new_ok (by omega)

theorem C02_roundtrip (v : UInt32) (x : U24) (h : U24.new v = .ok x) : WritesLE x 3 v.toNat := by
  by_cases hv : v.toNat < 2 ^ 24
  · rw [U24.new_ok hv] at h
    cases h
    exact ⟨_, lawful_u24.roundTrips ⟨v⟩ hv, rfl, by
      rw [leValue_eq, ← wire_u24, fromLE_toLE 3 _ (by omega)]⟩
  · rw [U24.new_err (by omega)] at h
    cases h

theorem u24_reads_any (b : Bytes) (h : b.length = 3) :
    Reads (Deserializable.deser (α := U24)) b ⟨UInt32.ofNat (fromLE b)⟩ := by
  rw [u24_deser]
  exact Reads.bind_last (Reads.readExact ⟨b, h⟩) rfl

/-- Every three bytes decode, to their little-endian value. -/
theorem C02_any_three_bytes (b rest : Bytes) (h : b.length = 3) (hs : IsSlice (b ++ rest)) :
    ∃ x : U24, deserialize U24 (b ++ rest) = .ok x ∧ x.val.toNat = Wire.leValue b := by
  refine ⟨_, (u24_reads_any b h).deserialize rest hs, ?_⟩
  have := fromLE_lt b
  rw [h] at this
  rw [leValue_eq]
  exact UInt32.toNat_ofNat_of_lt' (by simp only [UInt32.size]; omega)

/-- The field is public: an out-of-range `U24` is written without an error, as the value modulo 2^24, and
so is read back as a different value. -/
theorem C02_out_of_range_truncated (v : UInt32) (h : 2 ^ 24 ≤ v.toNat) :
    ∃ (e : Bytes) (y : U24), serialize (⟨v⟩ : U24) = .ok e ∧ e.length = 3 ∧
      Wire.leValue e = v.toNat % 2 ^ 24 ∧ deserialize U24 e = .ok y ∧ y ≠ ⟨v⟩ := by
  have hE : Emits (encoder (⟨v⟩ : U24)) (Wire.u24 v.toNat) 0 := by
    rw [← wire_u24, ← toLE_four_take]
    exact Emits.write_const (by simp [toLE])
  have hval : fromLE (Wire.u24 v.toNat) = v.toNat % 2 ^ 24 := by
    rw [← wire_u24_mod, ← wire_u24, fromLE_toLE 3 _ (by omega)]
  refine ⟨_, ⟨UInt32.ofNat (fromLE (Wire.u24 v.toNat))⟩, hE.serialize, rfl, by rw [leValue_eq, hval],
    ?_, ?_⟩
  · have := (u24_reads_any (Wire.u24 v.toNat) rfl).deserialize [] (by simp [IsSlice, Wire.u24])
    rwa [List.append_nil] at this
  · intro hc
    have h1 : (UInt32.ofNat (fromLE (Wire.u24 v.toNat))).toNat = v.toNat := by
      rw [U24.mk.inj hc]
    rw [hval, UInt32.toNat_ofNat_of_lt' (by simp only [UInt32.size]; omega)] at h1
    omega

example : U24.new 0xFFFFFF = .ok ⟨0xFFFFFF⟩ := by decide
example : (2 : Nat) ^ 24 ≤ (0x1000005 : UInt32).toNat ∧
    serialize (⟨0x1000005⟩ : U24) = .ok [5, 0, 0] := ⟨by decide, rfl⟩

/-! ## C03 -/

theorem C03_u256 (x : U256) : RoundTrips x x.val.toList := lawful_u256.roundTrips x trivial

theorem C03_any_32_bytes (b rest : Bytes) (h : b.length = 32) (hs : IsSlice (b ++ rest)) :
    ∃ x : U256, deserialize U256 (b ++ rest) = .ok x ∧ x.val.toList = b :=
  ⟨⟨⟨b, h⟩⟩, (lawful_u256.reads ⟨⟨b, h⟩⟩ trivial).deserialize rest hs, rfl⟩

theorem C03_short (b : Bytes) (h : b.length < 32) :
    ∃ msg, deserialize U256 b = .err (.parseError msg) := by
  have hlen : (b ++ List.replicate (32 - b.length) 0).length = 32 := by simp; omega
  refine ⟨_, (lawful_u256.rejects ⟨⟨b ++ List.replicate (32 - b.length) 0, hlen⟩⟩
    trivial).deserialize (by simp only [IsSlice]; rw [hlen]; decide) b
      (List.replicate (32 - b.length) 0) ?_ rfl⟩
  intro hc
  have := congrArg List.length hc
  simp at this
  omega

example : (List.replicate 32 (7 : UInt8)).length = 32 := by decide

/-! ## C04 -/

/-- Constructor: accepts exactly the strings that fit, and keeps the string. -/
theorem C04_new {max : Nat} (s : String) :
    (s.utf8ByteSize ≤ max → ∃ x : Str0 max, Str0.new s = .ok x ∧ x.data = s) ∧
    (max < s.utf8ByteSize → ∃ msg, (Str0.new s : Result (Str0 max)) = .err (.requirementError msg)) :=
  ⟨fun h => ⟨_, Str0.new_ok h, rfl⟩, fun h => ⟨_, Str0.new_err h⟩⟩

/-- The two types by name. -/
theorem C04_limits (s : String) :
    ((∃ x : STR0_32, Str0.new s = .ok x) ↔ s.utf8ByteSize ≤ 32) ∧
    ((∃ x : STR0_255, Str0.new s = .ok x) ↔ s.utf8ByteSize ≤ 255) := by
  have key : ∀ max : Nat, (∃ x : Str0 max, Str0.new s = .ok x) ↔ s.utf8ByteSize ≤ max := by
    intro max
    constructor
    · rintro ⟨x, hx⟩
      by_cases hl : s.utf8ByteSize ≤ max
      · exact hl
      · obtain ⟨msg, hm⟩ := (C04_new (max := max) s).2 (by omega)
        rw [hm] at hx; cases hx
    · intro hl
      obtain ⟨x, hx, _⟩ := (C04_new (max := max) s).1 hl
      exact ⟨x, hx⟩
  exact ⟨key 32, key 255⟩

/-- What was constructed round-trips; its wire form is the length byte and the UTF-8 bytes. -/
theorem C04_roundtrip {max : Nat} (hmax : max ≤ 255) (s : String) (x : Str0 max)
    (h : Str0.new s = .ok x) : RoundTrips x (Wire.str s) := by
  obtain ⟨rfl, hok⟩ := Str0.new_inv (by omega) h
  exact (lawful_str (by omega)).roundTrips x hok

/-- The outcome of decoding any bytes: too short, not UTF-8, too long for the type, or accepted. -/
theorem C04_decode {max : Nat} (n : UInt8) (rest : Bytes) (hs : IsSlice (n :: rest)) :
    (rest.length < n.toNat →
      ∃ msg, deserialize (Str0 max) (n :: rest) = .err (.parseError msg)) ∧
    (n.toNat ≤ rest.length → (¬ ∃ s : String, s.toByteArray.data.toList = rest.take n.toNat) →
      deserialize (Str0 max) (n :: rest) = .err .fromUtf8Error) ∧
    (∀ s : String, n.toNat ≤ rest.length → s.toByteArray.data.toList = rest.take n.toNat →
      max < n.toNat → ∃ msg, deserialize (Str0 max) (n :: rest) = .err (.requirementError msg)) ∧
    (∀ s : String, n.toNat ≤ rest.length → s.toByteArray.data.toList = rest.take n.toNat →
      n.toNat ≤ max → deserialize (Str0 max) (n :: rest) = .ok { length := n, data := s }) := by
  have hp : ByteParser.Valid ⟨n :: rest, 0⟩ := valid_zero hs
  have h1 : Deserializable.deser (α := UInt8) ⟨n :: rest, 0⟩ =
      (.ok n, ByteParser.adv ⟨n :: rest, 0⟩ 1) :=
    lawful_u8.reads n trivial _ hp rest (by simp [Wire.u8])
  have hr : (ByteParser.adv ⟨n :: rest, 0⟩ 1).rest = rest := by
    rw [ByteParser.rest_adv]; simp
  have hp1 : (ByteParser.adv ⟨n :: rest, 0⟩ 1).Valid := hp.adv (by simp)
  have hn := n.toNat_lt
  have hrun : deserialize (Str0 max) (n :: rest) =
      ((ByteParser.nextBy n.toNat >>= fun data_buffer =>
        match fromUtf8 data_buffer with
        | some s => SM.lift (Str0.new (max := max) s)
        | none => SM.fail .fromUtf8Error) (ByteParser.adv ⟨n :: rest, 0⟩ 1)).1 := by
    unfold deserialize
    show ((Deserializable.deser (α := UInt8) >>= _) _).1 = _
    rw [SM.bind_run, h1]
    rfl
  have hrun2 : n.toNat ≤ rest.length → deserialize (Str0 max) (n :: rest) =
      ((match fromUtf8 (rest.take n.toNat) with
        | some s => SM.lift (Str0.new (max := max) s)
        | none => SM.fail .fromUtf8Error : ParseM (Str0 max))
          ((ByteParser.adv ⟨n :: rest, 0⟩ 1).adv n.toNat)).1 := by
    intro hle
    rw [hrun, SM.bind_run, nextBy_ok hp1 (by rw [hr]; exact hle), hr]
  have hsize : ∀ s : String, n.toNat ≤ rest.length → s.toByteArray.data.toList = rest.take n.toNat →
      s.utf8ByteSize = n.toNat := by
    intro s hle h
    have : (strBytes s).length = (rest.take n.toNat).length := congrArg List.length h
    rw [strBytes_length, List.length_take] at this
    omega
  refine ⟨?_, ?_, ?_, ?_⟩
  · intro hlt
    refine ⟨"out of bounds error", ?_⟩
    rw [hrun, SM.bind_run, nextBy_err hp1 (by rw [hr]; exact hlt) (by omega)]
  · intro hle hno
    rw [hrun2 hle]
    cases h : fromUtf8 (rest.take n.toNat) with
    | none => rfl
    | some s => exact absurd ⟨s, fromUtf8_some h⟩ hno
  · intro s hle h hmax
    refine ⟨"string size cannot be greater than MAX_LENGTH", ?_⟩
    rw [hrun2 hle, ← h]
    show ((match fromUtf8 (strBytes s) with
        | some s => SM.lift (Str0.new (max := max) s)
        | none => SM.fail .fromUtf8Error : ParseM (Str0 max)) _).1 = _
    rw [fromUtf8_strBytes]
    simp only [Str0.new_err (max := max) (s := s) (by rw [hsize s hle h]; exact hmax)]
    rfl
  · intro s hle h hmax
    rw [hrun2 hle, ← h]
    show ((match fromUtf8 (strBytes s) with
        | some s => SM.lift (Str0.new (max := max) s)
        | none => SM.fail .fromUtf8Error : ParseM (Str0 max)) _).1 = _
    rw [fromUtf8_strBytes]
    simp only [Str0.new_ok (max := max) (s := s) (by rw [hsize s hle h]; exact hmax), SM.lift_ok,
      SM.pure_run, hsize s hle h]
    simp

theorem C04_decode_empty {max : Nat} : ∃ msg, deserialize (Str0 max) [] = .err (.parseError msg) :=
  ⟨_, rfl⟩

/-- Concrete: "Bitmain" fits both types; 0xff is not UTF-8; 33 bytes do not fit `STR0_32`. -/
example : Str0.new (max := 32) "Bitmain" = .ok { length := 7, data := "Bitmain" } := by decide
example : ¬ ∃ s : String, s.toByteArray.data.toList = [0xff] := by
  rintro ⟨s, h⟩
  have h1 := fromUtf8_strBytes s
  have h2 : strBytes s = [0xff] := h
  rw [h2] at h1
  have h3 : fromUtf8 [0xff] = none := by decide
  rw [h3] at h1
  cases h1
example : 32 < (String.ofList (List.replicate 33 'a')).utf8ByteSize := by decide

/-! ## C05 -/

/-- A length type occupies `w` little-endian bytes. -/
structure LengthWidth (L : Type) [LengthType L] (w : Nat) : Prop where
  small : w < 16
  bound : ∀ hdr : Bytes, hdr.length = w → fromLE hdr < 2 ^ 62
  read : ∀ hdr : Bytes, hdr.length = w → ∃ l : L, LengthType.toUsize l = fromLE hdr ∧
    Reads Deserializable.deser hdr l ∧ RejectsPrefix (Deserializable.deser (α := L)) hdr

theorem lengthWidth_u8 : LengthWidth UInt8 1 := by
  refine ⟨by decide, ?_, ?_⟩
  · intro hdr h; have := fromLE_lt hdr; rw [h] at this; omega
  · intro hdr h
    have hlt := fromLE_lt hdr
    rw [h] at hlt
    have e : (UInt8.ofNat (fromLE hdr)).toNat = fromLE hdr :=
      UInt8.toNat_ofNat_of_lt' (by simp only [UInt8.size]; omega)
    have hw : Wire.u8 (UInt8.ofNat (fromLE hdr)) = hdr := by
      rw [← wire_u8, e, toLE_fromLE' 1 _ h]
    refine ⟨UInt8.ofNat (fromLE hdr), e, ?_, ?_⟩
    · have := lawful_u8.reads (UInt8.ofNat (fromLE hdr)) trivial
      rwa [hw] at this
    · have := lawful_u8.rejects (UInt8.ofNat (fromLE hdr)) trivial
      rwa [hw] at this

theorem lengthWidth_u16 : LengthWidth UInt16 2 := by
  refine ⟨by decide, ?_, ?_⟩
  · intro hdr h; have := fromLE_lt hdr; rw [h] at this; omega
  · intro hdr h
    have hlt := fromLE_lt hdr
    rw [h] at hlt
    have e : (UInt16.ofNat (fromLE hdr)).toNat = fromLE hdr :=
      UInt16.toNat_ofNat_of_lt' (by simp only [UInt16.size]; omega)
    have hw : Wire.u16 (UInt16.ofNat (fromLE hdr)) = hdr := by
      rw [← wire_u16, e, toLE_fromLE' 2 _ h]
    refine ⟨UInt16.ofNat (fromLE hdr), e, ?_, ?_⟩
    · have := lawful_u16.reads (UInt16.ofNat (fromLE hdr)) trivial
      rwa [hw] at this
    · have := lawful_u16.rejects (UInt16.ofNat (fromLE hdr)) trivial
      rwa [hw] at this

theorem lengthWidth_u24 : LengthWidth U24 3 := by
  refine ⟨by decide, ?_, ?_⟩
  · intro hdr h; have := fromLE_lt hdr; rw [h] at this; omega
  · intro hdr h
    have hlt := fromLE_lt hdr
    rw [h] at hlt
    have e : (UInt32.ofNat (fromLE hdr)).toNat = fromLE hdr :=
      UInt32.toNat_ofNat_of_lt' (by simp only [UInt32.size]; omega)
    have hw : Wire.u24 (UInt32.ofNat (fromLE hdr)).toNat = hdr := by
      rw [← wire_u24, e, toLE_fromLE' 3 _ h]
    refine ⟨⟨UInt32.ofNat (fromLE hdr)⟩, e, u24_reads_any hdr h, ?_⟩
    have := lawful_u24.rejects ⟨UInt32.ofNat (fromLE hdr)⟩ (by
      show (UInt32.ofNat (fromLE hdr)).toNat < 2 ^ 24
      rw [e]; omega)
    simp only [hw] at this
    exact this

/-- The constructor of a `B0` type accepts exactly what fits, keeps the bytes, and never panics. -/
def B0Constructor (L : Type) [LengthType L] (max : Nat) : Prop :=
  ∀ v : Bytes,
    (v.length ≤ max → ∃ b : B0 L max, B0.new v = .ok b ∧ b.data = v) ∧
    (max < v.length → ∃ msg, (B0.new v : Result (B0 L max)) = .err (.requirementError msg))

/-- What was constructed is written as its length in `w` little-endian bytes followed by the bytes, and is
read back. -/
def B0RoundTrip (L : Type) [LengthType L] (max w : Nat) : Prop :=
  ∀ (v : Bytes) (b : B0 L max), B0.new v = .ok b →
    ∃ hdr, hdr.length = w ∧ Wire.leValue hdr = v.length ∧ RoundTrips b (hdr ++ v)

/-- The outcome of decoding any bytes. -/
def B0Decode (L : Type) [LengthType L] (max w : Nat) : Prop :=
  (∀ short : Bytes, short.length < w →
    ∃ msg, deserialize (B0 L max) short = .err (.parseError msg)) ∧
  ∀ hdr rest : Bytes, hdr.length = w → IsSlice (hdr ++ rest) →
    (rest.length < Wire.leValue hdr →
      ∃ msg, deserialize (B0 L max) (hdr ++ rest) = .err (.parseError msg)) ∧
    (Wire.leValue hdr ≤ rest.length → max < Wire.leValue hdr →
      ∃ msg, deserialize (B0 L max) (hdr ++ rest) = .err (.requirementError msg)) ∧
    (Wire.leValue hdr ≤ rest.length → Wire.leValue hdr ≤ max →
      ∃ b : B0 L max, deserialize (B0 L max) (hdr ++ rest) = .ok b ∧
        b.data = rest.take (Wire.leValue hdr) ∧ LengthType.toUsize b.length = Wire.leValue hdr)

section
variable {L : Type} [LengthType L] {top max w : Nat} {encL : Nat → Bytes}

theorem b0_constructor (hL : LawfulLength L top encL) (hmax : max ≤ top) : B0Constructor L max := by
  intro v
  refine ⟨fun h => ?_, fun h => ⟨_, B0.new_err h⟩⟩
  obtain ⟨b, h1, h2, _⟩ := B0.new_ok (L := L) hL hmax h
  exact ⟨b, h1, h2⟩

theorem b0_roundtrip (hL : LawfulLength L top encL) (hmax : max ≤ top)
    (hw : ∀ n, n ≤ top → (encL n).length = w ∧ fromLE (encL n) = n) : B0RoundTrip L max w := by
  intro v b h
  obtain ⟨rfl, hok⟩ := B0.new_inv hL hmax h
  have hle := hok.1
  obtain ⟨h1, h2⟩ := hw b.data.length (by omega)
  exact ⟨encL b.data.length, h1, by rw [leValue_eq, h2], (lawful_b0 hL hmax).roundTrips b hok⟩

theorem b0_decode (hL : LawfulLength L top encL) (hmax : max ≤ top) (hw : LengthWidth L w) :
    B0Decode L max w := by
  refine ⟨?_, ?_⟩
  · intro short h
    have hlen : (short ++ List.replicate (w - short.length) (0 : UInt8)).length = w := by simp; omega
    obtain ⟨l, _, hr, hrej⟩ := hw.read _ hlen
    have hs : IsSlice short := by have := hw.small; unfold IsSlice; omega
    obtain ⟨p', hp'⟩ := hrej ⟨short, 0⟩ (valid_zero hs) (List.replicate (w - short.length) 0) (by
      intro hc
      have := congrArg List.length hc
      simp at this
      omega) (by simp)
    refine ⟨"out of bounds error", ?_⟩
    unfold deserialize
    show ((Deserializable.deser (α := L) >>= _) _).1 = _
    rw [SM.bind_run, hp']
  · intro hdr rest hlen hs
    obtain ⟨l, hl, hr, _⟩ := hw.read hdr hlen
    have hb := hw.bound hdr hlen
    have hp : ByteParser.Valid ⟨hdr ++ rest, 0⟩ := valid_zero hs
    have h1 := hr ⟨hdr ++ rest, 0⟩ hp rest (by simp)
    have hrest : (ByteParser.adv ⟨hdr ++ rest, 0⟩ hdr.length).rest = rest := by
      rw [ByteParser.rest_adv]; simp
    have hp1 : (ByteParser.adv ⟨hdr ++ rest, 0⟩ hdr.length).Valid := hp.adv (by simp)
    have hrun : deserialize (B0 L max) (hdr ++ rest) =
        ((ByteParser.nextBy (fromLE hdr) >>= fun bytes => SM.lift (B0.new (L := L) (max := max) bytes))
          (ByteParser.adv ⟨hdr ++ rest, 0⟩ hdr.length)).1 := by
      unfold deserialize
      show ((Deserializable.deser (α := L) >>= _) _).1 = _
      rw [SM.bind_run, h1, ← hl]
    have hrun2 : fromLE hdr ≤ rest.length → deserialize (B0 L max) (hdr ++ rest) =
        B0.new (rest.take (fromLE hdr)) := by
      intro hle
      rw [hrun, SM.bind_run, nextBy_ok hp1 (by rw [hrest]; exact hle), hrest]
      rfl
    have htake : fromLE hdr ≤ rest.length → (rest.take (fromLE hdr)).length = fromLE hdr := by
      intro hle; rw [List.length_take]; omega
    rw [leValue_eq]
    refine ⟨?_, ?_, ?_⟩
    · intro hlt
      refine ⟨"out of bounds error", ?_⟩
      rw [hrun, SM.bind_run, nextBy_err hp1 (by rw [hrest]; exact hlt) (by omega)]
    · intro hle hgt
      refine ⟨"bytes size cannot be greater than MAX_LENGTH", ?_⟩
      rw [hrun2 hle, B0.new_err (by rw [htake hle]; exact hgt)]
    · intro hle hle2
      obtain ⟨b, hb1, hb2, hb3⟩ := B0.new_ok (L := L) (max := max) hL hmax
        (v := rest.take (fromLE hdr)) (by rw [htake hle]; exact hle2)
      refine ⟨b, by rw [hrun2 hle, hb1], hb2, ?_⟩
      rw [hb3.2, hb2, htake hle]

end

theorem encWidth_u8 (n : Nat) (h : n ≤ 255) :
    (Wire.u8 (UInt8.ofNat n)).length = 1 ∧ fromLE (Wire.u8 (UInt8.ofNat n)) = n := by
  refine ⟨rfl, ?_⟩
  rw [← wire_u8, UInt8.toNat_ofNat_of_lt' (by simp only [UInt8.size]; omega),
    fromLE_toLE 1 _ (by omega)]

theorem encWidth_u16 (n : Nat) (h : n ≤ 65535) :
    (Wire.u16 (UInt16.ofNat n)).length = 2 ∧ fromLE (Wire.u16 (UInt16.ofNat n)) = n := by
  refine ⟨rfl, ?_⟩
  rw [← wire_u16, UInt16.toNat_ofNat_of_lt' (by simp only [UInt16.size]; omega),
    fromLE_toLE 2 _ (by omega)]

theorem encWidth_u24 (n : Nat) (h : n ≤ 16777215) :
    (Wire.u24 n).length = 3 ∧ fromLE (Wire.u24 n) = n := by
  refine ⟨rfl, ?_⟩
  rw [← wire_u24, fromLE_toLE 3 _ (by omega)]

/-- All five byte-string types: header of 1, 1, 1, 2, 3 bytes; limits 31, 32, 255, 2^16-1, 2^24-1. -/
theorem C05_new : B0Constructor UInt8 31 ∧ B0Constructor UInt8 32 ∧ B0Constructor UInt8 255 ∧
    B0Constructor UInt16 (2 ^ 16 - 1) ∧ B0Constructor U24 (2 ^ 24 - 1) :=
  ⟨b0_constructor lawfulLength_u8 (by decide), b0_constructor lawfulLength_u8 (by decide),
    b0_constructor lawfulLength_u8 (by decide), b0_constructor lawfulLength_u16 (by decide),
    b0_constructor lawfulLength_u24 (by decide)⟩

theorem C05_roundtrip : B0RoundTrip UInt8 31 1 ∧ B0RoundTrip UInt8 32 1 ∧ B0RoundTrip UInt8 255 1 ∧
    B0RoundTrip UInt16 (2 ^ 16 - 1) 2 ∧ B0RoundTrip U24 (2 ^ 24 - 1) 3 :=
  ⟨b0_roundtrip lawfulLength_u8 (by decide) encWidth_u8,
    b0_roundtrip lawfulLength_u8 (by decide) encWidth_u8,
    b0_roundtrip lawfulLength_u8 (by decide) encWidth_u8,
    b0_roundtrip lawfulLength_u16 (by decide) encWidth_u16,
    b0_roundtrip lawfulLength_u24 (by decide) encWidth_u24⟩

theorem C05_decode : B0Decode UInt8 31 1 ∧ B0Decode UInt8 32 1 ∧ B0Decode UInt8 255 1 ∧
    B0Decode UInt16 (2 ^ 16 - 1) 2 ∧ B0Decode U24 (2 ^ 24 - 1) 3 :=
  ⟨b0_decode lawfulLength_u8 (by decide) lengthWidth_u8,
    b0_decode lawfulLength_u8 (by decide) lengthWidth_u8,
    b0_decode lawfulLength_u8 (by decide) lengthWidth_u8,
    b0_decode lawfulLength_u16 (by decide) lengthWidth_u16,
    b0_decode lawfulLength_u24 (by decide) lengthWidth_u24⟩

/-- The types by name: what each constructor accepts. -/
theorem C05_limits (v : Bytes) :
    ((∃ b : B0_31, B0.new v = .ok b) ↔ v.length ≤ 31) ∧
    ((∃ b : B0_32, B0.new v = .ok b) ↔ v.length ≤ 32) ∧
    ((∃ b : B0_255, B0.new v = .ok b) ↔ v.length ≤ 255) ∧
    ((∃ b : B0_64K, B0.new v = .ok b) ↔ v.length ≤ 65535) ∧
    ((∃ b : B0_16M, B0.new v = .ok b) ↔ v.length ≤ 16777215) := by
  have key : ∀ (L : Type) [LengthType L] (max : Nat), B0Constructor L max →
      ((∃ b : B0 L max, B0.new v = .ok b) ↔ v.length ≤ max) := by
    intro L _ max h
    constructor
    · rintro ⟨b, hb⟩
      by_cases hl : v.length ≤ max
      · exact hl
      · obtain ⟨msg, hm⟩ := (h v).2 (by omega)
        rw [hm] at hb; cases hb
    · intro hl
      obtain ⟨b, hb, _⟩ := (h v).1 hl
      exact ⟨b, hb⟩
  obtain ⟨h1, h2, h3, h4, h5⟩ := C05_new
  exact ⟨key _ _ h1, key _ _ h2, key _ _ h3, key _ _ h4, key _ _ h5⟩

/-- The types by name: how many bytes each writes. -/
theorem C05_sizes (v : Bytes) :
    (∀ b : B0_31, B0.new v = .ok b → ∃ e, serialize b = .ok e ∧ e.length = 1 + v.length) ∧
    (∀ b : B0_32, B0.new v = .ok b → ∃ e, serialize b = .ok e ∧ e.length = 1 + v.length) ∧
    (∀ b : B0_255, B0.new v = .ok b → ∃ e, serialize b = .ok e ∧ e.length = 1 + v.length) ∧
    (∀ b : B0_64K, B0.new v = .ok b → ∃ e, serialize b = .ok e ∧ e.length = 2 + v.length) ∧
    (∀ b : B0_16M, B0.new v = .ok b → ∃ e, serialize b = .ok e ∧ e.length = 3 + v.length) := by
  have key : ∀ (L : Type) [LengthType L] (max w : Nat), B0RoundTrip L max w →
      ∀ b : B0 L max, B0.new v = .ok b → ∃ e, serialize b = .ok e ∧ e.length = w + v.length := by
    intro L _ max w h b hb
    obtain ⟨hdr, h1, _, h3, _⟩ := h v b hb
    exact ⟨_, h3, by rw [List.length_append, h1]⟩
  obtain ⟨h1, h2, h3, h4, h5⟩ := C05_roundtrip
  exact ⟨key _ _ _ h1, key _ _ _ h2, key _ _ _ h3, key _ _ _ h4, key _ _ _ h5⟩

/-- Concrete: three bytes, in the type with a two-byte header. -/
example : serialize (⟨3, [1, 2, 3]⟩ : B0_64K) = .ok [3, 0, 1, 2, 3] ∧
    (B0.new [1, 2, 3] : Result B0_64K) = .ok ⟨3, [1, 2, 3]⟩ := ⟨rfl, rfl⟩
example : ∃ msg, (B0.new (List.replicate 33 0) : Result B0_32) = .err (.requirementError msg) :=
  ⟨_, rfl⟩

/-! ## C06 -/

theorem and_not_iff (b m : UInt32) : b &&& ~~~m = 0 ↔ b &&& m = b := by
  constructor
  · intro h
    have : b = (b &&& m) ||| (b &&& ~~~m) := by
      have hd : (b &&& m) ||| (b &&& ~~~m) = b &&& (m ||| ~~~m) := by
        apply UInt32.toBitVec_inj.mp
        simp only [UInt32.toBitVec_or, UInt32.toBitVec_and]
        exact BitVec.and_or_distrib_left.symm
      rw [hd, UInt32.or_not_self]; simp
    rw [h] at this
    simpa using this.symm
  · intro h
    rw [← h, UInt32.and_assoc, UInt32.and_not_self]
    simp

/-- With declared flags on the bits below `k`, the known values are those below `2 ^ k`. -/
theorem known_iff (b m : UInt32) (k : Nat) (hm : m.toNat = 2 ^ k - 1) :
    b &&& ~~~m = 0 ↔ b.toNat < 2 ^ k := by
  rw [and_not_iff, ← UInt32.toNat_inj, UInt32.toNat_and, hm, Nat.and_two_pow_sub_one_eq_mod]
  constructor
  · intro h
    have := Nat.mod_lt b.toNat (Nat.two_pow_pos k)
    omega
  · exact Nat.mod_eq_of_lt

/-- A flag set whose declared flags are the lowest `k` bits: a `u32` is accepted iff only those bits are
set, and is kept; otherwise the error is `UnknownFlags`. -/
def FlagsDecode (all : UInt32) (k : Nat) : Prop :=
  ∀ (b : UInt32) (rest : Bytes), IsSlice (Wire.u32 b ++ rest) →
    (b.toNat < 2 ^ k → ∃ f : Flags all, f.bits = b ∧ RoundTrips f (Wire.u32 b) ∧
      deserialize (Flags all) (Wire.u32 b ++ rest) = .ok f) ∧
    (2 ^ k ≤ b.toNat → deserialize (Flags all) (Wire.u32 b ++ rest) = .err .unknownFlags)

theorem flags_decode {all : UInt32} {k : Nat} (h : all.toNat = 2 ^ k - 1) : FlagsDecode all k := by
  intro b rest hs
  constructor
  · intro hb
    have hk := (known_iff b all k h).mpr hb
    have := lawful_flags.roundTrips (⟨b, hk⟩ : Flags all) trivial
    exact ⟨⟨b, hk⟩, rfl, this, this.2.1 rest hs⟩
  · intro hb
    have hk : ¬ b &&& ~~~all = 0 := fun hc => by
      have := (known_iff b all k h).mp hc
      omega
    unfold deserialize
    show ((Deserializable.deser (α := UInt32) >>= _) _).1 = _
    rw [SM.bind_run, lawful_u32.reads b trivial _ (valid_zero hs) rest (by simp)]
    simp only [Flags.fromBits, hk, dite_false]
    rfl

/-- Mining setup declares bits 0, 1, 2; mining success bits 0, 1; job negotiation setup bit 0; job
negotiation success none. -/
theorem C06_flags : FlagsDecode miningSetupFlags 3 ∧ FlagsDecode miningSuccessFlags 2 ∧
    FlagsDecode jobNegotiationSetupFlags 1 ∧ FlagsDecode jobNegotiationSuccessFlags 0 :=
  ⟨flags_decode (by decide), flags_decode (by decide), flags_decode (by decide),
    flags_decode (by decide)⟩

/-- Every value of a flag type round-trips. -/
theorem C06_roundtrip {all : UInt32} (f : Flags all) : RoundTrips f (Wire.u32 f.bits) :=
  lawful_flags.roundTrips f trivial

example : (5 : UInt32).toNat < 2 ^ 3 ∧ ¬ (8 : UInt32).toNat < 2 ^ 3 := by decide

/-! ## C07 -/

/-- Codes and their strings, one to one; other strings refused; wire form. -/
def CodeTable (α : Type) [ErrorCode α] [Serializable α] [Deserializable α] (str : α → String) : Prop :=
  (∀ c : α, ErrorCode.toStr c = str c ∧ ErrorCode.fromStr (str c) = .ok c ∧
    (str c).utf8ByteSize ≤ 32 ∧ RoundTrips c (Wire.str (str c))) ∧
  (∀ c c' : α, str c = str c' → c = c') ∧
  (∀ s : String, (∀ c : α, s ≠ str c) →
    (ErrorCode.fromStr s : Result α) = .err .unknownErrorCode)

theorem C07_setup : CodeTable SetupConnectionErrorCode Wire.setupErrorString := by
  refine ⟨?_, ?_, ?_⟩
  · intro c
    exact ⟨lawfulCode_setup.toStr c, lawfulCode_setup.fromTo c, by cases c <;> decide,
      lawful_setupCode.roundTrips c trivial⟩
  · intro c c' h
    have h1 := lawfulCode_setup.fromTo c
    rw [h, lawfulCode_setup.fromTo c'] at h1
    exact (Out.ok.inj h1).symm
  · intro s h
    simp only [ErrorCode.fromStr]
    have h1 : s ≠ "unsupported-feature-flags" := h .unsupportedFeatureFlags
    have h2 : s ≠ "unsupported-protocol" := h .unsupportedProtocol
    have h3 : s ≠ "protocol-version-mismatch" := h .protocolVersionMismatch
    rw [if_neg h1, if_neg h2, if_neg h3]

theorem C07_open : CodeTable OpenMiningChannelErrorCode Wire.openErrorString := by
  refine ⟨?_, ?_, ?_⟩
  · intro c
    exact ⟨lawfulCode_open.toStr c, lawfulCode_open.fromTo c, by cases c <;> decide,
      lawful_openCode.roundTrips c trivial⟩
  · intro c c' h
    have h1 := lawfulCode_open.fromTo c
    rw [h, lawfulCode_open.fromTo c'] at h1
    exact (Out.ok.inj h1).symm
  · intro s h
    simp only [ErrorCode.fromStr]
    have h1 : s ≠ "unknown-user" := h .unknownUser
    have h2 : s ≠ "max-target-out-of-range" := h .maxTargetOutOfRange
    rw [if_neg h1, if_neg h2]

example : ∀ c : SetupConnectionErrorCode, "unknown-user" ≠ Wire.setupErrorString c := by
  intro c; cases c <;> decide

/-! ## C08 -/

/-- Lookup of a pair of numbers gives `t` iff the pair is extension 0 and the number of `t`; otherwise the
error is `UnknownMessageType`. -/
theorem C08_table (e : UInt16) (m : UInt8) :
    (∀ t, MessageType.new e m = .ok t ↔ e = 0 ∧ m.toNat = Wire.msgNumber t) ∧
    ((¬ ∃ t, e = 0 ∧ m.toNat = Wire.msgNumber t) →
      MessageType.new e m = .err .unknownMessageType) := by
  have hiff : ∀ t, MessageType.new e m = .ok t ↔ e = 0 ∧ m.toNat = Wire.msgNumber t := by
    intro t
    constructor
    · intro h
      obtain ⟨h1, h2⟩ := messageType_new_inv h
      exact ⟨by rw [h1, extType_zero], by rw [h2, msgType_toNat]⟩
    · rintro ⟨h1, h2⟩
      have : m = t.msgType := UInt8.toNat_inj.mp (by rw [h2, msgType_toNat])
      rw [h1, this, ← extType_zero t]
      exact messageType_new t
  refine ⟨hiff, fun hno => ?_⟩
  rcases messageType_new_cases e m with ⟨t, h⟩ | h
  · exact absurd ⟨t, (hiff t).mp h⟩ hno
  · exact h

/-- The getters return the numbers of the table, distinct types have distinct numbers, and the channel
bit is the one the protocol assigns to the number. -/
theorem C08_getters :
    (∀ t : MessageType, t.extType.toNat < 0x8000 ∧ t.msgType.toNat = Wire.msgNumber t ∧
      t.channelBit = Wire.hasChannel (Wire.msgNumber t) ∧
      MessageType.new t.extType t.msgType = .ok t) ∧
    (∀ t t' : MessageType, t.extType = t'.extType → t.msgType = t'.msgType → t = t') := by
  refine ⟨fun t => ⟨by rw [extType_zero]; decide, msgType_toNat t, channelBit_eq t,
    messageType_new t⟩, ?_⟩
  intro t t' _ h
  exact msgNumber_inj (by rw [← msgType_toNat, ← msgType_toNat, h])

example : MessageType.new 0 0x1e = .ok .newMiningJob ∧
    MessageType.new 0 0x27 = .err .unknownMessageType ∧
    MessageType.new 1 0x1e = .err .unknownMessageType := by decide

/-! ## C09 -/

/-- `next_by` with overflow checks on, for any cursor: `ByteParser::new` also takes one behind the end. -/
theorem C09_next_by (bytes : Bytes) (start n : Nat) (hs : IsSlice bytes) :
    (∀ before out after, bytes = before ++ (out ++ after) → before.length = start → out.length = n →
      ByteParser.nextBy n ⟨bytes, start⟩ = (.ok out, ⟨bytes, start + n⟩)) ∧
    (bytes.length < start + n → start + n < 2 ^ 64 →
      ∃ msg, ByteParser.nextBy n ⟨bytes, start⟩ = (.err (.parseError msg), ⟨bytes, start⟩)) ∧
    (2 ^ 64 ≤ start + n → ByteParser.nextBy n ⟨bytes, start⟩ = (.panic, ⟨bytes, start⟩)) := by
  refine ⟨?_, ?_, ?_⟩
  · rintro before out after rfl rfl rfl
    rw [nextBy_ok (valid_mid hs) (by rw [rest_mid]; simp), rest_mid]
    simp [ByteParser.adv]
  · intro h1 h2
    refine ⟨"out of bounds error", ?_⟩
    simp only [ByteParser.nextBy, usizeMax]
    rw [if_neg (by omega), if_neg (by omega)]
  · intro h
    simp only [ByteParser.nextBy, usizeMax]
    rw [if_pos (by omega)]

/-- `next_by` without overflow checks: where the addition wraps it reports the same error as any other
out-of-bounds request; everywhere else it agrees with the checked version. -/
theorem C09_next_by_release (bytes : Bytes) (start n : Nat) (hs : IsSlice bytes)
    (hst : start < 2 ^ 64) (hn : n < 2 ^ 64) :
    (2 ^ 64 ≤ start + n →
      ∃ msg, ByteParser.nextByRelease n ⟨bytes, start⟩ = (.err (.parseError msg), ⟨bytes, start⟩)) ∧
    (start + n < 2 ^ 64 →
      ByteParser.nextByRelease n ⟨bytes, start⟩ = ByteParser.nextBy n ⟨bytes, start⟩) := by
  unfold IsSlice at hs
  refine ⟨?_, ?_⟩
  · intro h
    refine ⟨"out of bounds error", ?_⟩
    simp only [ByteParser.nextByRelease]
    rw [if_neg (by omega)]
  · intro h
    simp only [ByteParser.nextByRelease, ByteParser.nextBy, usizeMax]
    rw [Nat.mod_eq_of_lt h, if_neg (c := start + n > _) (by omega)]

example : IsSlice [1, 2, 3] ∧ ByteParser.nextBy 2 ⟨[1, 2, 3], 1⟩ = (.ok [2, 3], ⟨[1, 2, 3], 3⟩) ∧
    (∃ msg, ByteParser.nextBy 0 ⟨[1, 2, 3], 4⟩ = (.err (.parseError msg), ⟨[1, 2, 3], 4⟩)) :=
  ⟨by unfold IsSlice; decide, rfl, _, rfl⟩

/-! ## C10 -/

theorem C10_primitives : NeverPanics Bool ∧ NeverPanics UInt8 ∧ NeverPanics UInt16 ∧
    NeverPanics UInt32 ∧ NeverPanics F32 ∧ NeverPanics U24 ∧ NeverPanics U256 :=
  ⟨bool_safe.neverPanics, lawful_u8.safe.neverPanics, lawful_u16.safe.neverPanics,
    lawful_u32.safe.neverPanics, lawful_f32.safe.neverPanics, lawful_u24.safe.neverPanics,
    lawful_u256.safe.neverPanics⟩

theorem C10_strings_bytes_flags_codes :
    NeverPanics STR0_32 ∧ NeverPanics STR0_255 ∧ NeverPanics B0_31 ∧ NeverPanics B0_32 ∧
    NeverPanics B0_255 ∧ NeverPanics B0_64K ∧ NeverPanics B0_16M ∧
    (∀ all, NeverPanics (Flags all)) ∧ NeverPanics SetupConnectionErrorCode ∧
    NeverPanics OpenMiningChannelErrorCode ∧ NeverPanics Protocol :=
  ⟨lawful_str32.safe.neverPanics, lawful_str255.safe.neverPanics,
    (lawful_b8 (by decide)).safe.neverPanics, lawful_b32.safe.neverPanics,
    (lawful_b8 (by decide)).safe.neverPanics, (lawful_b16 (by decide)).safe.neverPanics,
    (lawful_b24 (by decide)).safe.neverPanics, fun _ => lawful_flags.safe.neverPanics,
    lawful_setupCode.safe.neverPanics, lawful_openCode.safe.neverPanics,
    lawful_protocol.safe.neverPanics⟩

theorem C10_messages :
    (∀ all, NeverPanics (SetupConnectionMsg all)) ∧ (∀ all, NeverPanics (SetupConnectionSuccess all)) ∧
    (∀ all, NeverPanics (SetupConnectionError all)) ∧ NeverPanics SetupConnection ∧
    NeverPanics ChannelEndpointChanged ∧ NeverPanics OpenStandardMiningChannel ∧
    NeverPanics OpenStandardMiningChannelSuccess ∧ NeverPanics OpenExtendedMiningChannel ∧
    NeverPanics OpenExtendedMiningChannelSuccess ∧ (∀ k, NeverPanics (OpenMiningChannelError k)) ∧
    NeverPanics UpdateChannel ∧ NeverPanics Message :=
  ⟨fun _ => lawful_setupMsg.safe.neverPanics, fun _ => lawful_setupSuccess.safe.neverPanics,
    fun _ => lawful_setupError.safe.neverPanics, lawful_setupConnection.safe.neverPanics,
    lawful_channelEndpointChanged.safe.neverPanics, lawful_openStandard.safe.neverPanics,
    lawful_openStandardSuccess.safe.neverPanics, lawful_openExtended.safe.neverPanics,
    lawful_openExtendedSuccess.safe.neverPanics, fun _ => lawful_openError.safe.neverPanics,
    lawful_updateChannel.safe.neverPanics, message_safe.neverPanics⟩

/-- Concrete: a cursor in the middle of a five-byte input. -/
example : IsSlice [1, 2, 3, 4, 5] ∧ 2 ≤ [1, 2, 3, 4, 5].length := ⟨by unfold IsSlice; decide, by decide⟩

end SV2
