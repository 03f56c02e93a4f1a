import Verif.Lemmas.Codec
/-!
# Codec laws for the basic types (helper lemmas)
-/

namespace SV2

/-! ## Fixed-width types -/

section Fixed
variable {α : Type} {n : Nat} (f : Arr n → α) (g : α → Arr n)

theorem fixed_reads (hfg : ∀ a, f (g a) = a) (a : α) :
    Reads (do let b ← readExact n; pure (f b)) (g a).toList a :=
  Reads.bind_last (Reads.readExact (g a)) (by rw [hfg])

theorem fixed_rejects (hn : n < 2 ^ 63) (a : α) :
    RejectsPrefix (do let b ← readExact n; pure (f b)) (g a).toList :=
  RejectsPrefix.bind_last (Reads.readExact (g a)) (RejectsPrefix.readExact _ hn)

theorem fixed_inverts (hgf : ∀ b, g (f b) = b) :
    Inverts (do let b ← readExact n; pure (f b)) (fun a e => e = (g a).toList) := by
  refine (Inverts.bind (Inverts.readExact n) (fun b => Inverts.pure (f b))).mono ?_
  rintro a e ⟨b, e1, e2, rfl, rfl, rfl, rfl⟩
  simp [hgf]

theorem fixed_safe (hn : n < 2 ^ 63) : Safe (do let b ← readExact n; pure (f b)) :=
  Safe.bind (Safe.readExact hn) fun _ => Safe.pure _

end Fixed

/-- `n` little-endian bytes as an array. -/
def leArr (n v : Nat) : Arr n := ⟨toLE n v, toLE_length n v⟩

theorem leArr_fromLE {n : Nat} (b : Arr n) : leArr n (fromLE b.toList) = b := by
  cases b with
  | mk l h => simp [leArr, toLE_fromLE' n l h]

theorem wire_u8 (x : UInt8) : toLE 1 x.toNat = Wire.u8 x := by
  have := x.toNat_lt
  simp [toLE, Wire.u8]

theorem wire_u16 (x : UInt16) : toLE 2 x.toNat = Wire.u16 x := by
  have := x.toNat_lt
  simp only [toLE, Wire.u16]
  rw [Nat.mod_eq_of_lt (a := x.toNat / 256) (by omega)]

theorem wire_u32 (x : UInt32) : toLE 4 x.toNat = Wire.u32 x := by
  have := x.toNat_lt
  simp only [toLE, Wire.u32]
  rw [Nat.div_div_eq_div_mul, Nat.div_div_eq_div_mul]
  rw [Nat.mod_eq_of_lt (a := x.toNat / (256 * 256 * 256)) (by omega)]

theorem lawful_u8 : Lawful UInt8 (fun _ => True) Wire.u8 := by
  have hfg : ∀ a : UInt8, UInt8.ofNat (fromLE (leArr 1 a.toNat).toList) = a := by
    intro a
    show UInt8.ofNat (fromLE (toLE 1 a.toNat)) = a
    rw [fromLE_toLE 1 _ (by have := a.toNat_lt; omega)]
    simp
  have hgf : ∀ b : Arr 1, leArr 1 (UInt8.ofNat (fromLE b.toList)).toNat = b := by
    intro b
    have := fromLE_lt b.toList
    rw [b.len] at this
    rw [UInt8.toNat_ofNat_of_lt' (by simpa using this)]
    exact leArr_fromLE b
  refine ⟨?_, ?_, ?_, ?_, ?_⟩
  · intro a _
    rw [← wire_u8]
    exact Emits.writeBuf _
  · intro a _
    rw [← wire_u8]
    exact fixed_reads (fun b => UInt8.ofNat (fromLE b.toList)) (fun a : UInt8 => leArr 1 a.toNat) hfg a
  · intro a _
    rw [← wire_u8]
    exact fixed_rejects (fun b => UInt8.ofNat (fromLE b.toList)) (fun a : UInt8 => leArr 1 a.toNat)
      (by decide) a
  · refine (fixed_inverts (fun b => UInt8.ofNat (fromLE b.toList)) (fun a : UInt8 => leArr 1 a.toNat)
      hgf).mono ?_
    intro a e h
    exact ⟨trivial, by rw [h, ← wire_u8]; rfl⟩
  · exact fixed_safe (fun b => UInt8.ofNat (fromLE b.toList)) (by decide)

theorem lawful_u16 : Lawful UInt16 (fun _ => True) Wire.u16 := by
  have hfg : ∀ a : UInt16, UInt16.ofNat (fromLE (leArr 2 a.toNat).toList) = a := by
    intro a
    show UInt16.ofNat (fromLE (toLE 2 a.toNat)) = a
    rw [fromLE_toLE 2 _ (by have := a.toNat_lt; omega)]
    simp
  have hgf : ∀ b : Arr 2, leArr 2 (UInt16.ofNat (fromLE b.toList)).toNat = b := by
    intro b
    have := fromLE_lt b.toList
    rw [b.len] at this
    rw [UInt16.toNat_ofNat_of_lt' (by simpa using this)]
    exact leArr_fromLE b
  refine ⟨?_, ?_, ?_, ?_, ?_⟩
  · intro a _
    rw [← wire_u16]
    exact Emits.writeBuf _
  · intro a _
    rw [← wire_u16]
    exact fixed_reads (fun b => UInt16.ofNat (fromLE b.toList)) (fun a : UInt16 => leArr 2 a.toNat)
      hfg a
  · intro a _
    rw [← wire_u16]
    exact fixed_rejects (fun b => UInt16.ofNat (fromLE b.toList)) (fun a : UInt16 => leArr 2 a.toNat)
      (by decide) a
  · refine (fixed_inverts (fun b => UInt16.ofNat (fromLE b.toList))
      (fun a : UInt16 => leArr 2 a.toNat) hgf).mono ?_
    intro a e h
    exact ⟨trivial, by rw [h, ← wire_u16]; rfl⟩
  · exact fixed_safe (fun b => UInt16.ofNat (fromLE b.toList)) (by decide)

theorem u32_fg (a : UInt32) : UInt32.ofNat (fromLE (leArr 4 a.toNat).toList) = a := by
  show UInt32.ofNat (fromLE (toLE 4 a.toNat)) = a
  rw [fromLE_toLE 4 _ (by have := a.toNat_lt; omega)]
  simp

theorem u32_gf (b : Arr 4) : leArr 4 (UInt32.ofNat (fromLE b.toList)).toNat = b := by
  have := fromLE_lt b.toList
  rw [b.len] at this
  rw [UInt32.toNat_ofNat_of_lt' (by simpa using this)]
  exact leArr_fromLE b

theorem lawful_u32 : Lawful UInt32 (fun _ => True) Wire.u32 := by
  refine ⟨?_, ?_, ?_, ?_, ?_⟩
  · intro a _
    rw [← wire_u32]
    exact Emits.writeBuf _
  · intro a _
    rw [← wire_u32]
    exact fixed_reads (fun b => UInt32.ofNat (fromLE b.toList)) (fun a : UInt32 => leArr 4 a.toNat)
      u32_fg a
  · intro a _
    rw [← wire_u32]
    exact fixed_rejects (fun b => UInt32.ofNat (fromLE b.toList)) (fun a : UInt32 => leArr 4 a.toNat)
      (by decide) a
  · refine (fixed_inverts (fun b => UInt32.ofNat (fromLE b.toList))
      (fun a : UInt32 => leArr 4 a.toNat) u32_gf).mono ?_
    intro a e h
    exact ⟨trivial, by rw [h, ← wire_u32]; rfl⟩
  · exact fixed_safe (fun b => UInt32.ofNat (fromLE b.toList)) (by decide)

theorem lawful_f32 : Lawful F32 (fun _ => True) (fun x => Wire.u32 x.bits) := by
  refine ⟨?_, ?_, ?_, ?_, ?_⟩
  · intro a _
    rw [← wire_u32]
    exact Emits.writeBuf _
  · intro a _
    rw [← wire_u32]
    exact fixed_reads (fun b => F32.mk (UInt32.ofNat (fromLE b.toList)))
      (fun a : F32 => leArr 4 a.bits.toNat) (fun a => by rw [u32_fg]) a
  · intro a _
    rw [← wire_u32]
    exact fixed_rejects (fun b => F32.mk (UInt32.ofNat (fromLE b.toList)))
      (fun a : F32 => leArr 4 a.bits.toNat) (by decide) a
  · refine (fixed_inverts (fun b => F32.mk (UInt32.ofNat (fromLE b.toList)))
      (fun a : F32 => leArr 4 a.bits.toNat) u32_gf).mono ?_
    intro a e h
    exact ⟨trivial, by rw [h, ← wire_u32]; rfl⟩
  · exact fixed_safe (fun b => F32.mk (UInt32.ofNat (fromLE b.toList))) (by decide)

theorem lawful_u256 : Lawful U256 (fun _ => True) (fun x => x.val.toList) := by
  refine ⟨?_, ?_, ?_, ?_, ?_⟩
  · intro a _
    exact Emits.write_const a.val.len
  · intro a _
    exact fixed_reads U256.mk U256.val (fun _ => rfl) a
  · intro a _
    exact fixed_rejects U256.mk U256.val (by decide) a
  · refine (fixed_inverts U256.mk U256.val (fun _ => rfl)).mono ?_
    intro a e h
    exact ⟨trivial, h⟩
  · exact fixed_safe U256.mk (by decide)

/-! ## U24 -/

theorem U24.new_ok {v : UInt32} (h : v.toNat < 2 ^ 24) : U24.new v = .ok ⟨v⟩ := by
  simp only [U24.new, U24.tryFromUsize]
  rw [if_neg (by omega)]
  simp

theorem U24.new_err {v : UInt32} (h : 2 ^ 24 ≤ v.toNat) :
    U24.new v = .err (.requirementError "U24 cannot be greater than 2^24-1") := by
  simp only [U24.new, U24.tryFromUsize]
  rw [if_pos (by omega)]

theorem toLE_four_take (v : Nat) : (toLE 4 v).take 3 = toLE 3 v := by
  simp [toLE]

theorem wire_u24 (v : Nat) : toLE 3 v = Wire.u24 v := by
  simp only [toLE, Wire.u24]
  rw [Nat.div_div_eq_div_mul]

theorem wire_u24_mod (v : Nat) : Wire.u24 (v % 2 ^ 24) = Wire.u24 v := by
  simp only [Wire.u24]
  congr 1
  · congr 1; omega
  · congr 1
    · congr 1; omega
    · congr 2; omega

theorem u24_step (s : Arr 3) :
    U24.new (UInt32.ofNat (fromLE (s.toList ++ [0]))) = .ok ⟨UInt32.ofNat (fromLE s.toList)⟩ := by
  have h0 : fromLE (s.toList ++ [0]) = fromLE s.toList := by
    rw [fromLE_append]; simp [fromLE]
  have h := fromLE_lt s.toList
  rw [s.len] at h
  have h' : (UInt32.ofNat (fromLE s.toList)).toNat = fromLE s.toList :=
    UInt32.toNat_ofNat_of_lt' (by simp only [UInt32.size]; omega)
  rw [h0, U24.new_ok (by rw [h']; omega)]

theorem u24_deser : (Deserializable.deser : ParseM U24) =
    (do let s ← readExact 3; pure (U24.mk (UInt32.ofNat (fromLE s.toList)))) := by
  show (do let s ← readExact 3; SM.lift (U24.new (UInt32.ofNat (fromLE (s.toList ++ [0]))))) = _
  congr 1
  funext s
  rw [u24_step]
  rfl

theorem lawful_u24 : Lawful U24 (fun x => x.val.toNat < 2 ^ 24) (fun x => Wire.u24 x.val.toNat) := by
  have hfg : ∀ a : U24, a.val.toNat < 2 ^ 24 →
      U24.mk (UInt32.ofNat (fromLE (leArr 3 a.val.toNat).toList)) = a := by
    intro a h
    show U24.mk (UInt32.ofNat (fromLE (toLE 3 a.val.toNat))) = a
    rw [fromLE_toLE 3 _ (by omega)]
    simp
  have hb : ∀ b : Arr 3, (UInt32.ofNat (fromLE b.toList)).toNat = fromLE b.toList := by
    intro b
    have := fromLE_lt b.toList
    rw [b.len] at this
    exact UInt32.toNat_ofNat_of_lt' (by simp only [UInt32.size]; omega)
  refine ⟨?_, ?_, ?_, ?_, ?_⟩
  · intro a _
    rw [← wire_u24, ← toLE_four_take]
    exact Emits.write_const (by simp [toLE])
  · intro a h
    rw [u24_deser, ← wire_u24]
    exact Reads.bind_last (Reads.readExact (leArr 3 a.val.toNat)) (by rw [hfg a h])
  · intro a h
    rw [u24_deser, ← wire_u24]
    exact RejectsPrefix.bind_last (Reads.readExact (leArr 3 a.val.toNat))
      (RejectsPrefix.readExact (leArr 3 a.val.toNat) (by decide))
  · rw [u24_deser]
    refine (Inverts.bind (Inverts.readExact 3) (fun b => Inverts.pure _)).mono ?_
    rintro a e ⟨b, e1, e2, rfl, rfl, rfl, rfl⟩
    have := fromLE_lt b.toList
    rw [b.len] at this
    refine ⟨by simp only [hb]; omega, ?_⟩
    rw [← wire_u24, hb, toLE_fromLE' 3 _ b.len]
    simp
  · rw [u24_deser]
    exact Safe.bind (Safe.readExact (by decide)) fun _ => Safe.pure _

/-! ## Strings -/

theorem strBytes_length (s : String) : (strBytes s).length = s.utf8ByteSize := by
  unfold strBytes
  rw [Array.length_toList]
  rfl

theorem wire_str (s : String) :
    Wire.u8 (UInt8.ofNat (strBytes s).length) ++ strBytes s = Wire.str s := by
  simp [Wire.u8, Wire.str, strBytes_length]
  rfl

theorem fromUtf8_strBytes (s : String) : fromUtf8 (strBytes s) = some s := by
  unfold fromUtf8 strBytes String.fromUTF8?
  have : (⟨s.toByteArray.data.toList.toArray⟩ : ByteArray) = s.toByteArray := by
    simp
  rw [this]
  simp [String.fromUTF8, s.isValidUTF8]

theorem fromUtf8_some {b : Bytes} {s : String} (h : fromUtf8 b = some s) : strBytes s = b := by
  unfold fromUtf8 String.fromUTF8? at h
  split at h
  · simp only [Option.some.injEq] at h
    subst h
    simp [strBytes, String.fromUTF8]
  · simp at h

theorem Str0.new_ok {max : Nat} {s : String} (h : s.utf8ByteSize ≤ max) :
    Str0.new (max := max) s = .ok { length := UInt8.ofNat s.utf8ByteSize, data := s } := by
  simp only [Str0.new, strBytes_length]
  rw [if_neg (by omega)]

theorem Str0.new_err {max : Nat} {s : String} (h : max < s.utf8ByteSize) :
    Str0.new (max := max) s =
      .err (.requirementError "string size cannot be greater than MAX_LENGTH") := by
  simp only [Str0.new, strBytes_length]
  rw [if_pos (by omega)]

theorem Str0.new_ne_panic {max : Nat} (s : String) : Str0.new (max := max) s ≠ .panic := by
  unfold Str0.new
  split <;> simp

theorem Str0.new_inv {max : Nat} (hmax : max < 256) {s : String} {x : Str0 max}
    (h : Str0.new s = .ok x) : x.data = s ∧ Wire.StrOK x := by
  by_cases hs : s.utf8ByteSize ≤ max
  · rw [Str0.new_ok hs] at h
    simp only [Out.ok.injEq] at h
    subst h
    refine ⟨rfl, hs, ?_⟩
    exact UInt8.toNat_ofNat_of_lt' (by simp only [UInt8.size]; omega)
  · rw [Str0.new_err (by omega)] at h
    simp at h

theorem StrOK.length_eq {max : Nat} {x : Str0 max} (h : Wire.StrOK x) :
    x.length = UInt8.ofNat x.data.utf8ByteSize := by
  rw [← h.2]; simp

theorem StrOK.new_eq {max : Nat} {x : Str0 max} (h : Wire.StrOK x) : Str0.new x.data = .ok x := by
  rw [Str0.new_ok h.1, ← StrOK.length_eq h]

theorem Emits.write_tail {b : Bytes} {k n : Nat} (h : k = n + b.length) :
    Emits (fun _ w => do let _ ← w.write b; Pure.pure k) b n := by
  subst h
  refine ⟨[b], by simp, ?_⟩
  intro σ w
  simp only [writeAll, SM.bind_assoc', SM.pure_bind']

/-- The part of the string decoder after the length byte. -/
theorem str_tail_inverts {max : Nat} (hmax : max < 256) (n : UInt8) :
    Inverts (do
        let data_buffer ← ByteParser.nextBy n.toNat
        match fromUtf8 data_buffer with
        | some s => SM.lift (Str0.new (max := max) s)
        | none => SM.fail .fromUtf8Error)
      (fun x e => Wire.StrOK x ∧ x.length = n ∧ e = strBytes x.data) := by
  refine (Inverts.bind
    (Q := fun b x e => ∃ s, fromUtf8 b = some s ∧ Str0.new (max := max) s = .ok x ∧ e = [])
    (Inverts.nextBy n.toNat) ?_).mono ?_
  · intro b
    cases h : fromUtf8 b with
    | none => exact Inverts.fail _ _
    | some s =>
      refine (Inverts.lift _).mono ?_
      rintro x e ⟨h1, h2⟩
      exact ⟨s, rfl, h1, h2⟩
  · rintro x e ⟨b, e1, e2, rfl, ⟨rfl, hlen⟩, s, hs, hx, rfl⟩
    obtain ⟨rfl, hok⟩ := Str0.new_inv hmax hx
    have hb := fromUtf8_some hs
    refine ⟨hok, ?_, by simp [hb]⟩
    rw [StrOK.length_eq hok, ← strBytes_length, hb, hlen]
    simp

theorem lawful_str {max : Nat} (hmax : max < 256) :
    Lawful (Str0 max) Wire.StrOK (fun x => Wire.str x.data) := by
  have hlen : ∀ a : Str0 max, Wire.StrOK a →
      ByteParser.nextBy a.length.toNat = ByteParser.nextBy (strBytes a.data).length := by
    intro a h; rw [h.2, strBytes_length]
  have henc : ∀ a : Str0 max, Wire.StrOK a →
      Wire.str a.data = Wire.u8 a.length ++ strBytes a.data := by
    intro a h; rw [← wire_str, strBytes_length, ← StrOK.length_eq h]
  refine ⟨?_, ?_, ?_, ?_, ?_⟩
  · intro a h
    rw [henc a h]
    refine Emits.seq (lawful_u8.emits a.length trivial)
      (t := fun k _ w => do let _ ← w.write (strBytes a.data); pure (k + a.length.toNat)) ?_
    refine Emits.write_tail ?_
    rw [strBytes_length, h.2]
    simp
  · intro a h
    rw [henc a h]
    refine Reads.bind (lawful_u8.reads a.length trivial) ?_
    rw [hlen a h]
    refine Reads.bind_last (Reads.nextBy _) ?_
    rw [fromUtf8_strBytes]
    simp only [StrOK.new_eq h, SM.lift_ok]
  · intro a h
    rw [henc a h]
    refine RejectsPrefix.bind (lawful_u8.reads a.length trivial) (lawful_u8.rejects a.length trivial) ?_
    rw [hlen a h]
    refine RejectsPrefix.bind_last (Reads.nextBy _) (RejectsPrefix.nextBy _ ?_)
    rw [strBytes_length]
    have := h.1
    omega
  · refine (Inverts.bind lawful_u8.inverts (fun n => str_tail_inverts hmax n)).mono ?_
    rintro x e ⟨n, e1, e2, rfl, ⟨_, rfl⟩, hok, rfl, rfl⟩
    exact ⟨hok, (henc x hok).symm⟩
  · refine Safe.bind lawful_u8.safe fun n => ?_
    refine Safe.bind (Safe.nextBy (by have := n.toNat_lt; omega)) fun b => ?_
    cases fromUtf8 b with
    | none => exact Safe.fail _
    | some s => exact Safe.lift (Str0.new_ne_panic s)

/-! ## Byte strings, generic in the length type -/

/-- What the generic proof needs to know about a length type whose values go up to `top`. -/
structure LawfulLength (L : Type) [LengthType L] (top : Nat) (encL : Nat → Bytes) : Prop where
  top_lt : top < 2 ^ 63
  tryFrom : ∀ n, n ≤ top → ∃ l : L, LengthType.tryFromUsize n = some l ∧ LengthType.toUsize l = n
  inj : ∀ l l' : L, LengthType.toUsize l = LengthType.toUsize l' → l = l'
  codec : Lawful L (fun l => LengthType.toUsize l ≤ top) (fun l => encL (LengthType.toUsize l))

theorem lawfulLength_u8 : LawfulLength UInt8 255 (fun n => Wire.u8 (UInt8.ofNat n)) := by
  refine ⟨by decide, ?_, ?_, ?_⟩
  · intro n h
    refine ⟨UInt8.ofNat n, ?_, ?_⟩
    · simp only [LengthType.tryFromUsize]; rw [if_pos (by omega)]
    · exact UInt8.toNat_ofNat_of_lt' (by simp only [UInt8.size]; omega)
  · intro l l' h
    exact UInt8.toNat_inj.mp h
  · have h := lawful_u8
    have e : ∀ a : UInt8, Wire.u8 (UInt8.ofNat (LengthType.toUsize a)) = Wire.u8 a := by
      intro a; simp [LengthType.toUsize]
    simp only [e]
    exact ⟨fun a _ => h.emits a trivial, fun a _ => h.reads a trivial,
      fun a _ => h.rejects a trivial,
      h.inverts.mono fun a e h => ⟨by have := a.toNat_lt; simp only [LengthType.toUsize]; omega, h.2⟩,
      h.safe⟩

theorem lawfulLength_u16 : LawfulLength UInt16 65535 (fun n => Wire.u16 (UInt16.ofNat n)) := by
  refine ⟨by decide, ?_, ?_, ?_⟩
  · intro n h
    refine ⟨UInt16.ofNat n, ?_, ?_⟩
    · simp only [LengthType.tryFromUsize]; rw [if_pos (by omega)]
    · exact UInt16.toNat_ofNat_of_lt' (by simp only [UInt16.size]; omega)
  · intro l l' h
    exact UInt16.toNat_inj.mp h
  · have h := lawful_u16
    have e : ∀ a : UInt16, Wire.u16 (UInt16.ofNat (LengthType.toUsize a)) = Wire.u16 a := by
      intro a; simp [LengthType.toUsize]
    simp only [e]
    exact ⟨fun a _ => h.emits a trivial, fun a _ => h.reads a trivial,
      fun a _ => h.rejects a trivial,
      h.inverts.mono fun a e h => ⟨by have := a.toNat_lt; simp only [LengthType.toUsize]; omega, h.2⟩,
      h.safe⟩

theorem lawfulLength_u24 : LawfulLength U24 16777215 Wire.u24 := by
  refine ⟨by decide, ?_, ?_, ?_⟩
  · intro n h
    refine ⟨⟨UInt32.ofNat n⟩, ?_, ?_⟩
    · simp only [LengthType.tryFromUsize, U24.tryFromUsize]; rw [if_neg (by omega)]
    · exact UInt32.toNat_ofNat_of_lt' (by simp only [UInt32.size]; omega)
  · intro l l' h
    cases l; cases l'
    simp only [LengthType.toUsize] at h
    rw [UInt32.toNat_inj.mp h]
  · have h := lawful_u24
    refine ⟨?_, ?_, ?_, ?_, h.safe⟩
    · intro a ha
      exact h.emits a (by simp only [LengthType.toUsize] at ha; omega)
    · intro a ha
      exact h.reads a (by simp only [LengthType.toUsize] at ha; omega)
    · intro a ha
      exact h.rejects a (by simp only [LengthType.toUsize] at ha; omega)
    · refine h.inverts.mono ?_
      rintro a e ⟨h1, h2⟩
      exact ⟨by simp only [LengthType.toUsize]; omega, h2⟩

section B0
variable {L : Type} [LengthType L] {top max : Nat} {encL : Nat → Bytes}

/-- A `B0` record as a constructor makes it. -/
def B0.OK (b : B0 L max) : Prop :=
  b.data.length ≤ max ∧ LengthType.toUsize b.length = b.data.length

theorem B0.new_ok (hL : LawfulLength L top encL) (hmax : max ≤ top) {v : Bytes} (h : v.length ≤ max) :
    ∃ b : B0 L max, B0.new v = .ok b ∧ b.data = v ∧ b.OK := by
  obtain ⟨l, h1, h2⟩ := hL.tryFrom v.length (by omega)
  refine ⟨⟨l, v⟩, ?_, rfl, h, h2⟩
  simp only [B0.new]
  rw [if_neg (by omega), h1]

theorem B0.new_err {v : Bytes} (h : max < v.length) : (B0.new v : Result (B0 L max)) =
    .err (.requirementError "bytes size cannot be greater than MAX_LENGTH") := by
  simp only [B0.new]
  rw [if_pos (by omega)]

theorem B0.new_ne_panic (hL : LawfulLength L top encL) (hmax : max ≤ top) (v : Bytes) :
    (B0.new v : Result (B0 L max)) ≠ .panic := by
  by_cases h : v.length ≤ max
  · obtain ⟨b, hb, _⟩ := B0.new_ok hL hmax h
    rw [hb]; simp
  · rw [B0.new_err (by omega)]; simp

theorem B0.new_inv (hL : LawfulLength L top encL) (hmax : max ≤ top) {v : Bytes} {b : B0 L max}
    (h : B0.new v = .ok b) : b.data = v ∧ b.OK := by
  by_cases hv : v.length ≤ max
  · obtain ⟨b', hb, h1, h2⟩ := B0.new_ok (L := L) hL hmax hv
    rw [hb] at h
    simp only [Out.ok.injEq] at h
    subst h
    exact ⟨h1, h2⟩
  · rw [B0.new_err (by omega)] at h
    simp at h

theorem B0.OK.new_eq (hL : LawfulLength L top encL) (hmax : max ≤ top) {b : B0 L max} (h : b.OK) :
    B0.new b.data = .ok b := by
  obtain ⟨b', hb, h1, h2⟩ := B0.new_ok (L := L) hL hmax h.1
  rw [hb]
  have : b'.length = b.length := hL.inj _ _ (by rw [h2.2, h.2, h1])
  cases b; cases b'
  simp_all

theorem lawful_b0 (hL : LawfulLength L top encL) (hmax : max ≤ top) :
    Lawful (B0 L max) B0.OK (fun b => encL b.data.length ++ b.data) := by
  have htop := hL.top_lt
  refine ⟨?_, ?_, ?_, ?_, ?_⟩
  · intro a h
    rw [← h.2]
    refine Emits.seq (hL.codec.emits a.length (by have := h.1; rw [h.2]; omega))
      (t := fun k _ w => do let _ ← w.write a.data; pure (k + a.data.length)) ?_
    exact Emits.write_tail (by simp)
  · intro a h
    have h1 := h.1
    have := Reads.bind (hL.codec.reads a.length (by rw [h.2]; omega))
      (f := fun hl => do
        let bytes ← ByteParser.nextBy (LengthType.toUsize hl)
        SM.lift (B0.new (L := L) (max := max) bytes)) (e2 := a.data) (b := a) (by
          rw [h.2]
          refine Reads.bind_last (Reads.nextBy _) ?_
          rw [h.new_eq hL hmax, SM.lift_ok])
    rw [h.2] at this
    exact this
  · intro a h
    have h1 := h.1
    have := RejectsPrefix.bind (hL.codec.reads a.length (by rw [h.2]; omega))
      (hL.codec.rejects a.length (by rw [h.2]; omega))
      (f := fun hl => do
        let bytes ← ByteParser.nextBy (LengthType.toUsize hl)
        SM.lift (B0.new (L := L) (max := max) bytes)) (e2 := a.data) (by
          rw [h.2]
          exact RejectsPrefix.bind_last (Reads.nextBy _) (RejectsPrefix.nextBy _ (by omega)))
    rw [h.2] at this
    exact this
  · refine (Inverts.bind hL.codec.inverts (fun l => Inverts.bind (Inverts.nextBy _)
      (fun b => Inverts.lift _))).mono ?_
    rintro x e ⟨l, e1, e2, rfl, ⟨_, rfl⟩, b, e3, e4, rfl, ⟨rfl, hlen⟩, hx, rfl⟩
    obtain ⟨rfl, hok⟩ := B0.new_inv hL hmax hx
    exact ⟨hok, by simp [hlen]⟩
  · refine Safe.bind' hL.codec.safe hL.codec.inverts ?_
    rintro l e ⟨hl, _⟩
    exact Safe.bind (Safe.nextBy (by omega)) fun b => Safe.lift (B0.new_ne_panic hL hmax b)

end B0

/-! ## Flags -/

theorem lawful_flags {all : UInt32} : Lawful (Flags all) (fun _ => True) (fun f => Wire.u32 f.bits) := by
  refine ⟨?_, ?_, ?_, ?_, ?_⟩
  · intro a _
    exact lawful_u32.emits a.bits trivial
  · intro a _
    refine Reads.bind_last (lawful_u32.reads a.bits trivial) ?_
    simp only [Flags.fromBits, a.known, dite_true]
  · intro a _
    exact RejectsPrefix.bind_last (lawful_u32.reads a.bits trivial) (lawful_u32.rejects a.bits trivial)
  · refine (Inverts.bind (Q := fun b f e => f.bits = b ∧ e = []) lawful_u32.inverts ?_).mono ?_
    · intro b
      simp only [Flags.fromBits]
      by_cases h : b &&& ~~~all = 0
      · simp only [h, dite_true]
        refine (Inverts.pure _).mono ?_
        rintro f e ⟨rfl, rfl⟩
        exact ⟨rfl, rfl⟩
      · simp only [h, dite_false]
        exact Inverts.fail _ _
    · rintro f e ⟨b, e1, e2, rfl, ⟨_, rfl⟩, rfl, rfl⟩
      exact ⟨trivial, by simp⟩
  · refine Safe.bind lawful_u32.safe fun b => ?_
    simp only [Flags.fromBits]
    by_cases h : b &&& ~~~all = 0
    · simp only [h, dite_true]; exact Safe.pure _
    · simp only [h, dite_false]; exact Safe.fail _

/-! ## Error codes -/

/-- The strings of an error code table can be told apart. -/
structure LawfulCode (α : Type) [ErrorCode α] (str : α → String) : Prop where
  toStr : ∀ c : α, ErrorCode.toStr c = str c
  size : ∀ c : α, (str c).utf8ByteSize ≤ 255
  fromTo : ∀ c : α, ErrorCode.fromStr (str c) = .ok c
  toFrom : ∀ (s : String) (c : α), ErrorCode.fromStr s = .ok c → s = str c
  noPanic : ∀ s : String, (ErrorCode.fromStr s : Result α) ≠ .panic

section Code
variable {α : Type} [ErrorCode α] {str : α → String}

theorem LawfulCode.ok (h : LawfulCode α str) (c : α) :
    Wire.StrOK (ErrorCode.toStr0 c) ∧ (ErrorCode.toStr0 c).data = str c := by
  have hs := h.size c
  refine ⟨⟨?_, ?_⟩, h.toStr c⟩
  · simp only [ErrorCode.toStr0, h.toStr]; exact hs
  · simp only [ErrorCode.toStr0, h.toStr, strBytes_length]
    exact UInt8.toNat_ofNat_of_lt' (by simp only [UInt8.size]; omega)

theorem code_emits (h : LawfulCode α str) (c : α) :
    Emits (fun _ w => ErrorCode.ser w c) (Wire.str (str c)) 0 := by
  have := (lawful_str (max := 255) (by decide)).emits _ (h.ok c).1
  rw [(h.ok c).2] at this
  exact this

theorem code_reads (h : LawfulCode α str) (c : α) :
    Reads (ErrorCode.deser (α := α)) (Wire.str (str c)) c := by
  have := (lawful_str (max := 255) (by decide)).reads _ (h.ok c).1
  rw [(h.ok c).2] at this
  refine Reads.bind_last this ?_
  rw [(h.ok c).2, h.fromTo, SM.lift_ok]

theorem code_rejects (h : LawfulCode α str) (c : α) :
    RejectsPrefix (ErrorCode.deser (α := α)) (Wire.str (str c)) := by
  have h1 := (lawful_str (max := 255) (by decide)).reads _ (h.ok c).1
  have h2 := (lawful_str (max := 255) (by decide)).rejects _ (h.ok c).1
  rw [(h.ok c).2] at h1 h2
  exact RejectsPrefix.bind_last h1 h2

theorem code_inverts (h : LawfulCode α str) :
    Inverts (ErrorCode.deser (α := α)) (fun c e => True ∧ e = Wire.str (str c)) := by
  refine (Inverts.bind (lawful_str (max := 255) (by decide)).inverts
    (fun s => Inverts.lift _)).mono ?_
  rintro c e ⟨s, e1, e2, rfl, ⟨_, rfl⟩, hc, rfl⟩
  rw [h.toFrom _ _ hc]
  simp

theorem code_safe (h : LawfulCode α str) : Safe (ErrorCode.deser (α := α)) :=
  Safe.bind (lawful_str (max := 255) (by decide)).safe fun s => Safe.lift (h.noPanic s.data)

end Code

theorem lawfulCode_setup : LawfulCode SetupConnectionErrorCode Wire.setupErrorString := by
  refine ⟨?_, ?_, ?_, ?_, ?_⟩
  · intro c; cases c <;> rfl
  · intro c; cases c <;> decide
  · intro c; cases c <;> decide
  · intro s c h
    simp only [ErrorCode.fromStr] at h
    split at h
    · next hs => simp at h; subst h; exact hs
    · split at h
      · next hs => simp at h; subst h; exact hs
      · split at h
        · next hs => simp at h; subst h; exact hs
        · simp at h
  · intro s
    simp only [ErrorCode.fromStr]
    split
    · simp
    · split
      · simp
      · split <;> simp

theorem lawfulCode_open : LawfulCode OpenMiningChannelErrorCode Wire.openErrorString := by
  refine ⟨?_, ?_, ?_, ?_, ?_⟩
  · intro c; cases c <;> rfl
  · intro c; cases c <;> decide
  · intro c; cases c <;> decide
  · intro s c h
    simp only [ErrorCode.fromStr] at h
    split at h
    · next hs => simp at h; subst h; exact hs
    · split at h
      · next hs => simp at h; subst h; exact hs
      · simp at h
  · intro s
    simp only [ErrorCode.fromStr]
    split
    · simp
    · split <;> simp

theorem lawful_setupCode :
    Lawful SetupConnectionErrorCode (fun _ => True) (fun c => Wire.str (Wire.setupErrorString c)) :=
  ⟨fun c _ => code_emits lawfulCode_setup c, fun c _ => code_reads lawfulCode_setup c,
    fun c _ => code_rejects lawfulCode_setup c, code_inverts lawfulCode_setup,
    code_safe lawfulCode_setup⟩

theorem lawful_openCode :
    Lawful OpenMiningChannelErrorCode (fun _ => True) (fun c => Wire.str (Wire.openErrorString c)) :=
  ⟨fun c _ => code_emits lawfulCode_open c, fun c _ => code_reads lawfulCode_open c,
    fun c _ => code_rejects lawfulCode_open c, code_inverts lawfulCode_open,
    code_safe lawfulCode_open⟩

end SV2
