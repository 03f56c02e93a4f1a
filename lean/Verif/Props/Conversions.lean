import Verif.Model.Conversions
import Verif.Props.Types
import Verif.Lemmas.Built
/-!
# C60-C61: values written down field by field, and comparisons with plain values
-/

namespace SV2
open Law

/-! ## C60 -/

/-- The header and the text are written as they are: nothing checks that they agree. -/
theorem str_ser_any {max : Nat} (x : Str0 max) (buf : Bytes) :
    Serializable.ser vecWriter x buf =
      (.ok (1 + x.length.toNat), buf ++ x.length :: strBytes x.data) := by
  have h := (lawful_u8.emits x.length trivial).run_vec buf
  show ((Serializable.ser vecWriter x.length >>= fun n => _) : SM _ _ _) buf = _
  simp only [encoder] at h
  rw [SM.bind_run, h]
  simp [SM.bind_run, vecWriter_write, Wire.u8, SM.pure_run]

/-- Any `STR0`, even one whose fields disagree, is written as its length byte and its text; the size
returned is computed from the length byte.  It reads back as itself exactly when a constructor could have
made it. -/
theorem C60_str {max : Nat} (x : Str0 max) (h : x.data.utf8ByteSize < 2 ^ 62) :
    (∀ buf, Serializable.ser vecWriter x buf = (.ok (1 + x.length.toNat),
        buf ++ x.length :: x.data.toByteArray.data.toList)) ∧
    ∃ e, serialize x = .ok e ∧ e = x.length :: x.data.toByteArray.data.toList ∧
      (deserialize (Str0 max) e = .ok x ↔
        x.length.toNat = x.data.utf8ByteSize ∧ x.data.utf8ByteSize ≤ max) := by
  refine ⟨str_ser_any x, _, ?_, rfl, ?_⟩
  · unfold serialize; rw [str_ser_any]; rfl
  · have hl : (x.data.toByteArray.data.toList).length = x.data.utf8ByteSize := strBytes_length x.data
    have hs : IsSlice (x.length :: x.data.toByteArray.data.toList) := by
      unfold IsSlice; rw [List.length_cons, hl]; omega
    obtain ⟨d1, d2, d3, d4⟩ := C04_decode (max := max) x.length _ hs
    rw [hl] at d1 d2 d3 d4
    constructor
    · intro hd
      by_cases h1 : x.data.utf8ByteSize < x.length.toNat
      · obtain ⟨m, hm⟩ := d1 h1; rw [hm] at hd; cases hd
      · by_cases h2 : ∃ s : String, s.toByteArray.data.toList =
            (x.data.toByteArray.data.toList).take x.length.toNat
        · obtain ⟨s, hsd⟩ := h2
          by_cases h3 : max < x.length.toNat
          · obtain ⟨m, hm⟩ := d3 s (by omega) hsd h3; rw [hm] at hd; cases hd
          · have := d4 s (by omega) hsd (by omega)
            rw [this] at hd
            simp only [Out.ok.injEq] at hd
            have hd2 : s = x.data := by rw [← hd]
            subst hd2
            have := congrArg List.length hsd
            rw [List.length_take, hl] at this
            omega
        · rw [d2 (by omega) h2] at hd; cases hd
    · rintro ⟨h1, h2⟩
      rw [d4 x.data (by omega) (by rw [List.take_of_length_le]; omega) (by omega)]

/-- What `HandBuilt` says of `C60_str`, for a byte string with a `w`-byte header: the header is the length
field modulo `256^w`, and the value reads back as itself exactly when the fields agree and fit. -/
def HandBuilt (L : Type) [LengthType L] (max w : Nat) : Prop :=
  ∀ x : B0 L max, x.data.length < 2 ^ 62 →
    ∃ hdr, serialize x = .ok (hdr ++ x.data) ∧ hdr.length = w ∧
      Wire.leValue hdr = LengthType.toUsize x.length % 2 ^ (8 * w) ∧
      (∀ buf, Serializable.ser vecWriter x buf = (.ok (w + x.data.length), buf ++ (hdr ++ x.data))) ∧
      (deserialize (B0 L max) (hdr ++ x.data) = .ok x ↔
        LengthType.toUsize x.length = x.data.length ∧ x.data.length ≤ max)

theorem handBuilt {L : Type} [LengthType L] {top max w : Nat} {encL : Nat → Bytes}
    (hL : LawfulLength L top encL) (hmax : max ≤ top) (hw : LengthWidth L w)
    (htop : top < 2 ^ (8 * w))
    (hE : ∀ l : L, ∃ hdr, hdr.length = w ∧ Emits (encoder l) hdr 0 ∧
      Wire.leValue hdr = LengthType.toUsize l % 2 ^ (8 * w)) : HandBuilt L max w := by
  intro x hx
  obtain ⟨hdr, hlen, hem, hval⟩ := hE x.length
  have hemit : Emits (encoder x) (hdr ++ x.data) 0 :=
    Emits.seq hem (t := fun k _ w => do let _ ← w.write x.data; pure (k + x.data.length))
      (Emits.write_tail (by simp))
  have hsm := hw.small
  have hs : IsSlice (hdr ++ x.data) := by
    unfold IsSlice; rw [List.length_append, hlen]; omega
  obtain ⟨d1, d2, d3⟩ := (b0_decode hL hmax hw).2 hdr x.data hlen hs
  refine ⟨hdr, hemit.serialize, hlen, hval, ?_, ?_⟩
  · intro buf
    have := hemit.run_vec buf
    rw [List.length_append, hlen] at this
    exact this
  · constructor
    · intro hd
      by_cases h1 : x.data.length < Wire.leValue hdr
      · obtain ⟨m, hm⟩ := d1 h1; rw [hm] at hd; cases hd
      · by_cases h2 : max < Wire.leValue hdr
        · obtain ⟨m, hm⟩ := d2 (by omega) h2; rw [hm] at hd; cases hd
        · obtain ⟨b, hb, hb1, hb2⟩ := d3 (by omega) (by omega)
          rw [hb] at hd
          simp only [Out.ok.injEq] at hd
          subst hd
          have := congrArg List.length hb1
          rw [List.length_take] at this
          omega
    · rintro ⟨h1, h2⟩
      have hv : Wire.leValue hdr = x.data.length := by
        rw [hval, h1, Nat.mod_eq_of_lt (by omega)]
      obtain ⟨b, hb, hb1, hb2⟩ := d3 (by omega) (by omega)
      rw [hb, Out.ok.injEq]
      have e1 : b.length = x.length := hL.inj _ _ (by rw [hb2, hv, h1])
      have e2 : b.data = x.data := by rw [hb1, hv, List.take_length]
      cases b; cases x
      simp only at e1 e2
      rw [e1, e2]

theorem header_u8 (l : UInt8) : ∃ hdr : Bytes, hdr.length = 1 ∧ Emits (encoder l) hdr 0 ∧
    Wire.leValue hdr = LengthType.toUsize l % 2 ^ (8 * 1) := by
  have := l.toNat_lt
  refine ⟨_, rfl, lawful_u8.emits l trivial, ?_⟩
  rw [leValue_eq, ← wire_u8, fromLE_toLE 1 _ (by omega)]
  exact (Nat.mod_eq_of_lt (by show l.toNat < _; omega)).symm

theorem header_u16 (l : UInt16) : ∃ hdr : Bytes, hdr.length = 2 ∧ Emits (encoder l) hdr 0 ∧
    Wire.leValue hdr = LengthType.toUsize l % 2 ^ (8 * 2) := by
  have := l.toNat_lt
  refine ⟨_, rfl, lawful_u16.emits l trivial, ?_⟩
  rw [leValue_eq, ← wire_u16, fromLE_toLE 2 _ (by omega)]
  exact (Nat.mod_eq_of_lt (by show l.toNat < _; omega)).symm

theorem header_u24 (l : U24) : ∃ hdr : Bytes, hdr.length = 3 ∧ Emits (encoder l) hdr 0 ∧
    Wire.leValue hdr = LengthType.toUsize l % 2 ^ (8 * 3) := by
  refine ⟨Wire.u24 l.val.toNat, rfl, ?_, ?_⟩
  · rw [← wire_u24, ← toLE_four_take]
    exact Emits.write_const (by simp [toLE])
  · rw [leValue_eq, ← wire_u24_mod, ← wire_u24, fromLE_toLE 3 _ (by omega)]
    rfl

theorem C60_bytes : HandBuilt UInt8 31 1 ∧ HandBuilt UInt8 32 1 ∧ HandBuilt UInt8 255 1 ∧
    HandBuilt UInt16 (2 ^ 16 - 1) 2 ∧ HandBuilt U24 (2 ^ 24 - 1) 3 :=
  ⟨handBuilt lawfulLength_u8 (by decide) lengthWidth_u8 (by decide) header_u8,
    handBuilt lawfulLength_u8 (by decide) lengthWidth_u8 (by decide) header_u8,
    handBuilt lawfulLength_u8 (by decide) lengthWidth_u8 (by decide) header_u8,
    handBuilt lawfulLength_u16 (by decide) lengthWidth_u16 (by decide) header_u16,
    handBuilt lawfulLength_u24 (by decide) lengthWidth_u24 (by decide) header_u24⟩

/-- Field injection.  Take any two texts `a` and `b`, `a` at most 255 bytes, `b` at least 36.  The message
whose identity is written down with the text `a ++ b` but the length of `a` serializes without an error,
and the receiver reads a different message, one the constructor makes: its identity is `a`, and its hash
rate and target are the first 36 bytes of `b`, whatever the sender's hash rate and target are. -/
theorem C60_injection (id : UInt32) (rate : F32) (target : U256) (a b : String)
    (ha : a.utf8ByteSize ≤ 255) (hb : 36 ≤ b.utf8ByteSize) (hb' : b.utf8ByteSize < 2 ^ 61) :
    ∃ (e : Bytes) (m : OpenStandardMiningChannel),
      serialize (⟨id, ⟨UInt8.ofNat a.utf8ByteSize, a ++ b⟩, rate, target⟩ : OpenStandardMiningChannel) =
        .ok e ∧
      deserialize OpenStandardMiningChannel e = .ok m ∧
      m ≠ ⟨id, ⟨UInt8.ofNat a.utf8ByteSize, a ++ b⟩, rate, target⟩ ∧ Built m ∧
      m.request_id = id ∧ m.user_identity.data = a ∧
      m.nominal_hash_rate.bits.toNat = Wire.leValue (b.toByteArray.data.toList.take 4) ∧
      m.max_target.val.toList = (b.toByteArray.data.toList.drop 4).take 32 := by
  have hsz : (strBytes b).length = b.utf8ByteSize := strBytes_length b
  have haz : (UInt8.ofNat a.utf8ByteSize).toNat = a.utf8ByteSize :=
    UInt8.toNat_ofNat_of_lt' (by simp only [UInt8.size]; omega)
  have h4 : ((strBytes b).take 4).length = 4 := by rw [List.length_take]; omega
  have h32 : (((strBytes b).drop 4).take 32).length = 32 := by
    rw [List.length_take, List.length_drop]; omega
  have hbits := fromLE_lt ((strBytes b).take 4)
  rw [h4] at hbits
  have hbn : (UInt32.ofNat (fromLE ((strBytes b).take 4))).toNat = fromLE ((strBytes b).take 4) :=
    UInt32.toNat_ofNat_of_lt' (by simp only [UInt32.size]; omega)
  have hab : strBytes (a ++ b) = strBytes a ++ strBytes b := by simp [strBytes]
  let m : OpenStandardMiningChannel :=
    ⟨id, ⟨UInt8.ofNat a.utf8ByteSize, a⟩, ⟨UInt32.ofNat (fromLE ((strBytes b).take 4))⟩,
      ⟨⟨((strBytes b).drop 4).take 32, h32⟩⟩⟩
  have hok : Wire.StrOK m.user_identity := ⟨ha, haz⟩
  have hser : serialize
      (⟨id, ⟨UInt8.ofNat a.utf8ByteSize, a ++ b⟩, rate, target⟩ : OpenStandardMiningChannel) =
      .ok (Wire.u32 id ++ (UInt8.ofNat a.utf8ByteSize :: strBytes (a ++ b)) ++ Wire.u32 rate.bits ++
        target.val.toList) := by
    have e1 := (lawful_u32.emits id trivial).run_vec []
    have e2 := str_ser_any (max := 255) ⟨UInt8.ofNat a.utf8ByteSize, a ++ b⟩ ([] ++ Wire.u32 id)
    have e3 := (lawful_f32.emits rate trivial).run_vec
      ([] ++ Wire.u32 id ++ (UInt8.ofNat a.utf8ByteSize :: strBytes (a ++ b)))
    have e4 := (lawful_u256.emits target trivial).run_vec
      ([] ++ Wire.u32 id ++ (UInt8.ofNat a.utf8ByteSize :: strBytes (a ++ b)) ++ Wire.u32 rate.bits)
    simp only [encoder] at e1 e2 e3 e4
    unfold serialize
    simp only [Serializable.ser, SM.bind_run] at e1 e2 e3 e4 ⊢
    simp only [e1, e2, e3, e4]
    simp
  have hbytes : Wire.u32 id ++ (UInt8.ofNat a.utf8ByteSize :: strBytes (a ++ b)) ++
      Wire.u32 rate.bits ++ target.val.toList =
      Wire.openStandardMiningChannel m ++ ((strBytes b).drop 36 ++ Wire.u32 rate.bits ++
        target.val.toList) := by
    have hw : Wire.u32 (UInt32.ofNat (fromLE ((strBytes b).take 4))) = (strBytes b).take 4 := by
      rw [← wire_u32, hbn, toLE_fromLE' 4 _ h4]
    have hstr : Wire.str a = UInt8.ofNat a.utf8ByteSize :: strBytes a := by
      rw [← wire_str, strBytes_length]; rfl
    have hsplit : strBytes b = (strBytes b).take 4 ++ (((strBytes b).drop 4).take 32 ++
        (strBytes b).drop 36) := by
      rw [show (strBytes b).drop 36 = ((strBytes b).drop 4).drop 32 by rw [List.drop_drop],
        List.take_append_drop, List.take_append_drop]
    simp only [Wire.openStandardMiningChannel, m, hw, hstr, hab]
    conv => lhs; rw [hsplit]
    simp only [List.append_assoc, List.cons_append]
  have hslice : IsSlice (Wire.openStandardMiningChannel m ++ ((strBytes b).drop 36 ++
      Wire.u32 rate.bits ++ target.val.toList)) := by
    rw [← hbytes]
    unfold IsSlice
    have : (Wire.u32 rate.bits).length = 4 := rfl
    have : (Wire.u32 id).length = 4 := rfl
    have := target.val.len
    have := strBytes_length a
    simp only [List.length_append, List.length_cons, hab]
    omega
  refine ⟨_, m, hser, ?_, ?_, (built_openStandard m).mpr hok, rfl, rfl, ?_, rfl⟩
  · rw [hbytes]
    exact (lawful_openStandard.reads m hok).deserialize _ hslice
  · intro hc
    have h1 : a = a ++ b := congrArg (fun m : OpenStandardMiningChannel => m.user_identity.data) hc
    have h2 := congrArg String.utf8ByteSize h1
    rw [String.utf8ByteSize_append] at h2
    omega
  · show (UInt32.ofNat (fromLE ((strBytes b).take 4))).toNat = _
    rw [hbn, leValue_eq]; rfl

/-- Concrete: an identity written down with length 5 and a text of 41 bytes; the receiver sees the
identity "alice" and the target of 32 bytes 0x7a ("z"). -/
example : ∃ (e : Bytes) (m : OpenStandardMiningChannel),
    serialize (⟨7, ⟨5, "alice" ++ "0000zzzzzzzzzzzzzzzzzzzzzzzzzzzzzzzz"⟩, ⟨0⟩, ⟨⟨List.replicate 32 0, rfl⟩⟩⟩ :
      OpenStandardMiningChannel) = .ok e ∧
    deserialize OpenStandardMiningChannel e = .ok m ∧ m.user_identity.data = "alice" ∧
    m.max_target.val.toList = List.replicate 32 0x7a := by
  obtain ⟨e, m, h1, h2, _, _, _, h6, _, h8⟩ := C60_injection 7 ⟨0⟩ ⟨⟨List.replicate 32 0, rfl⟩⟩ "alice"
    "0000zzzzzzzzzzzzzzzzzzzzzzzzzzzzzzzz" (by decide) (by decide) (by decide)
  exact ⟨e, m, h1, h2, h6, by rw [h8]; decide⟩

/-! ## C61 -/

/-- A constructed string compares with plain strings as the string it was made from, in both directions,
converts back to it, and is the only value of its type that does either. -/
theorem C61_str {max : Nat} (hmax : max ≤ 255) (v : String) (x : Str0 max) (h : Str0.new v = .ok x) :
    x.toString = v ∧ (Str0.new x.toString : Result (Str0 max)) = .ok x ∧
    (∀ w, (x.eqString w = true ↔ v = w) ∧ (Str0.stringEq w x = true ↔ w = v)) ∧
    ∀ w (y : Str0 max), Str0.new w = .ok y →
      (x = y ↔ v = w) ∧ (x.eqString y.toString = true ↔ x = y) := by
  obtain ⟨hx, hok⟩ := Str0.new_inv (by omega) h
  subst hx
  refine ⟨rfl, h, fun w => ⟨by simp [Str0.eqString], by simp [Str0.stringEq]⟩, ?_⟩
  intro w y hy
  obtain ⟨hyd, _⟩ := Str0.new_inv (by omega) hy
  subst hyd
  have key : x = y ↔ x.data = y.data := by
    constructor
    · intro h; rw [h]
    · intro hd
      rw [hd, hy] at h
      exact (Out.ok.inj h).symm
  exact ⟨key, by simp [Str0.eqString, Str0.toString, key]⟩

/-- The fields are public.  For values written down field by field the comparison with a `String` looks at
the text only, while the comparison of two `STR0` looks at the length byte too: `x == s` and `s == y` do
not give `x == y`, for any text. -/
theorem C61_str_not_transitive (max : Nat) (s : String) (l₁ l₂ : UInt8) (h : l₁ ≠ l₂) :
    (⟨l₁, s⟩ : Str0 max).eqString s = true ∧ Str0.stringEq s (⟨l₂, s⟩ : Str0 max) = true ∧
    (⟨l₁, s⟩ : Str0 max) ≠ ⟨l₂, s⟩ :=
  ⟨by simp [Str0.eqString], by simp [Str0.stringEq], fun hc => h (Str0.mk.inj hc).1⟩

/-- `C61_str` and `C61_str_not_transitive`, for a byte-string type. -/
def BytesCompare (L : Type) [LengthType L] (max : Nat) : Prop :=
  (∀ (v : Bytes) (x : B0 L max), B0.new v = .ok x →
    x.toVec = v ∧ (B0.new x.toVec : Result (B0 L max)) = .ok x ∧
    (∀ w, (x.eqVec w = true ↔ v = w) ∧ (B0.vecEq w x = true ↔ w = v)) ∧
    ∀ w (y : B0 L max), B0.new w = .ok y →
      (x = y ↔ v = w) ∧ (x.eqVec y.toVec = true ↔ x = y)) ∧
  ∀ (v : Bytes) (l₁ l₂ : L), l₁ ≠ l₂ →
    (⟨l₁, v⟩ : B0 L max).eqVec v = true ∧ B0.vecEq v (⟨l₂, v⟩ : B0 L max) = true ∧
    (⟨l₁, v⟩ : B0 L max) ≠ ⟨l₂, v⟩

theorem bytesCompare {L : Type} [LengthType L] {top max : Nat} {encL : Nat → Bytes}
    (hL : LawfulLength L top encL) (hmax : max ≤ top) : BytesCompare L max := by
  refine ⟨?_, fun v l₁ l₂ h =>
    ⟨by simp [B0.eqVec], by simp [B0.vecEq], fun hc => h (B0.mk.inj hc).1⟩⟩
  intro v x h
  obtain ⟨hx, _⟩ := B0.new_inv hL hmax h
  subst hx
  refine ⟨rfl, h, fun w => ⟨by simp [B0.eqVec], by simp [B0.vecEq]⟩, ?_⟩
  intro w y hy
  obtain ⟨hyd, _⟩ := B0.new_inv hL hmax hy
  subst hyd
  have key : x = y ↔ x.data = y.data := by
    constructor
    · intro h; rw [h]
    · intro hd
      rw [hd, hy] at h
      exact (Out.ok.inj h).symm
  exact ⟨key, by simp [B0.eqVec, B0.toVec, key]⟩

theorem C61_bytes : BytesCompare UInt8 31 ∧ BytesCompare UInt8 32 ∧ BytesCompare UInt8 255 ∧
    BytesCompare UInt16 (2 ^ 16 - 1) ∧ BytesCompare U24 (2 ^ 24 - 1) :=
  ⟨bytesCompare lawfulLength_u8 (by decide), bytesCompare lawfulLength_u8 (by decide),
    bytesCompare lawfulLength_u8 (by decide), bytesCompare lawfulLength_u16 (by decide),
    bytesCompare lawfulLength_u24 (by decide)⟩

/-- `U24`: the conversions to `u32` and `usize` undo the constructors and agree with each other and with
the comparisons. -/
theorem C61_u24 (v : UInt32) (x : U24) (h : U24.new v = .ok x) :
    x.toU32 = v ∧ x.toUsize = v.toNat ∧ U24.new x.toU32 = .ok x ∧ U24.tryFromUsize x.toUsize = .ok x ∧
    (∀ w, (x.eqU32 w = true ↔ v = w) ∧ (U24.u32Eq w x = true ↔ w = v)) ∧
    ∀ w y, U24.new w = .ok y → (x = y ↔ v = w) := by
  by_cases hv : v.toNat < 2 ^ 24
  · rw [U24.new_ok hv] at h
    cases h
    refine ⟨rfl, rfl, U24.new_ok hv, U24.new_ok hv,
      fun w => ⟨by simp [U24.eqU32], by simp [U24.u32Eq]⟩, ?_⟩
    intro w y hy
    by_cases hw : w.toNat < 2 ^ 24
    · rw [U24.new_ok hw] at hy
      cases hy
      simp
    · rw [U24.new_err (by omega)] at hy
      cases hy
  · rw [U24.new_err (by omega)] at h
    cases h

/-- `U256` and `[u8; 32]` convert into each other without loss and compare alike. -/
theorem C61_u256 (x y : U256) (a : Arr 32) :
    U256.fromArray x.toArray = x ∧ (U256.fromArray a).toArray = a ∧
    (x.eqArray a = true ↔ x = U256.fromArray a) ∧ (U256.arrayEq a x = true ↔ U256.fromArray a = x) ∧
    (x = y ↔ x.toArray = y.toArray) ∧
    (∃ e, RoundTrips (U256.fromArray a) e ∧ e = a.toList) := by
  refine ⟨rfl, rfl, ?_, ?_, ?_, _, lawful_u256.roundTrips (U256.fromArray a) trivial, rfl⟩
  · cases x; simp [U256.eqArray, U256.fromArray]
  · cases x; simp [U256.arrayEq, U256.fromArray]
  · cases x; cases y; simp [U256.toArray]

/-- Concrete: a constructed string equals its text, and one with a wrong length byte does too. -/
example : ∃ x : STR0_32, Str0.new "pool" = .ok x ∧ x.eqString "pool" = true ∧
    (⟨9, "pool"⟩ : STR0_32).eqString "pool" = true ∧ x ≠ ⟨9, "pool"⟩ := by
  refine ⟨⟨4, "pool"⟩, by decide, by decide, by decide, by decide⟩
example : ∃ x, U24.new 0xFFFFFF = .ok x ∧ x.toUsize = 16777215 := ⟨⟨0xFFFFFF⟩, by decide, by decide⟩

end SV2
