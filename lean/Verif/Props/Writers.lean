import Verif.Lemmas.Built
import Verif.Lemmas.Macro
import Verif.Lemmas.Certificate
import Verif.Lemmas.Frame
import Verif.Spec.Writers
/-!
# C100: serializing to any writer
-/

namespace SV2
open Law

/-! ## Encoders with known pieces -/

/-- The encoder offers these pieces to any writer and returns `n` plus their total size. -/
def Splits (s : Enc) (cs : List Bytes) (n : Nat) : Prop :=
  ∀ (σ : Type) (w : Writer σ), s σ w = (do writeAll w cs; pure (n + cs.flatten.length))

theorem Splits.writeBuf (b : Bytes) : Splits (fun _ w => writeBuf w b) [b] 0 := by
  intro σ w
  simp only [writeAll, SV2.writeBuf, SM.bind_assoc', SM.pure_bind', Nat.zero_add, List.flatten_cons,
    List.flatten_nil, List.append_nil]

theorem Splits.write_const {b : Bytes} {n k : Nat} (h : k = n + b.length) :
    Splits (fun _ w => do let _ ← w.write b; Pure.pure k) [b] n := by
  subst h
  intro σ w
  simp only [writeAll, SM.bind_assoc', SM.pure_bind', List.flatten_cons, List.flatten_nil, List.append_nil]

theorem Splits.pure {n m : Nat} (h : n = m) : Splits (fun _ _ => Pure.pure n) [] m := by
  subst h
  exact fun σ w => rfl

theorem Splits.seq {s : Enc} {t : Nat → Enc} {c1 c2 : List Bytes} {n : Nat} (h1 : Splits s c1 0)
    (h2 : Splits (t c1.flatten.length) c2 (n + c1.flatten.length)) :
    Splits (fun σ w => s σ w >>= fun k => t k σ w) (c1 ++ c2) n := by
  intro σ w
  show (s σ w >>= fun k => t k σ w) = _
  rw [h1, writeAll_append]
  simp only [SM.bind_assoc', SM.pure_bind', Nat.zero_add, h2 σ w, List.flatten_append, List.length_append,
    Nat.add_assoc]

theorem Splits.seq_last {s : Enc} {t : Nat → Enc} {c : List Bytes} {n : Nat} (h1 : Splits s c 0)
    (h2 : Splits (t c.flatten.length) [] (n + c.flatten.length)) :
    Splits (fun σ w => s σ w >>= fun k => t k σ w) c n := by
  have := Splits.seq (t := t) (n := n) h1 h2
  simpa using this

theorem splits_u8 (x : UInt8) : Splits (encoder x) [[x]] 0 := by
  show Splits (encoder x) [Wire.u8 x] 0
  rw [← wire_u8]
  exact Splits.writeBuf _

theorem splits_u16 (x : UInt16) : Splits (encoder x) [Wire.u16 x] 0 := by
  rw [← wire_u16]; exact Splits.writeBuf _

theorem splits_u32 (x : UInt32) : Splits (encoder x) [Wire.u32 x] 0 := by
  rw [← wire_u32]; exact Splits.writeBuf _

theorem splits_f32 (x : F32) : Splits (encoder x) [Wire.u32 x.bits] 0 := by
  rw [← wire_u32]; exact Splits.writeBuf _

theorem splits_u24 (x : U24) : Splits (encoder x) [Wire.u24 x.val.toNat] 0 := by
  rw [← wire_u24, ← toLE_four_take]
  exact Splits.write_const (by simp [toLE])

theorem splits_u256 (x : U256) : Splits (encoder x) [x.val.toList] 0 :=
  Splits.write_const (by rw [x.val.len])

theorem splits_flags {all : UInt32} (x : Flags all) : Splits (encoder x) [Wire.u32 x.bits] 0 :=
  splits_u32 x.bits

theorem splits_str {max : Nat} (a : Str0 max) (h : Wire.StrOK a) :
    Splits (encoder a) (Pieces.str a.data) 0 := by
  have e : Pieces.str a.data = [[a.length]] ++ [strBytes a.data] := by
    show [[UInt8.ofNat a.data.utf8ByteSize], _] = [[a.length], _]
    rw [← StrOK.length_eq h]
    rfl
  rw [e]
  refine Splits.seq (splits_u8 a.length)
    (t := fun k _ w => do let _ ← w.write (strBytes a.data); Pure.pure (k + a.length.toNat)) ?_
  refine Splits.write_const ?_
  rw [strBytes_length, h.2]
  simp

theorem splits_b8 {max : Nat} (a : B0 UInt8 max) (h : Wire.B8OK a) :
    Splits (encoder a) (Pieces.bytes8 a.data) 0 := by
  have e : Pieces.bytes8 a.data = [[a.length]] ++ [a.data] := by
    show [[UInt8.ofNat a.data.length], a.data] = [[a.length], a.data]
    rw [← h.2]
    simp
  rw [e]
  refine Splits.seq (splits_u8 a.length)
    (t := fun k _ w => do let _ ← w.write a.data; Pure.pure (k + a.data.length)) ?_
  exact Splits.write_const (by simp)

theorem splits_b16 {max : Nat} (a : B0 UInt16 max) (h : Wire.B16OK a) :
    Splits (encoder a) (Pieces.bytes16 a.data) 0 := by
  have e : Pieces.bytes16 a.data = [Wire.u16 a.length] ++ [a.data] := by
    show [Wire.u16 (UInt16.ofNat a.data.length), a.data] = [Wire.u16 a.length, a.data]
    rw [← h.2]
    simp
  rw [e]
  refine Splits.seq (splits_u16 a.length)
    (t := fun k _ w => do let _ ← w.write a.data; Pure.pure (k + a.data.length)) ?_
  exact Splits.write_const (by simp)

theorem splits_b24 {max : Nat} (a : B0 U24 max) (h : Wire.B24OK a) :
    Splits (encoder a) (Pieces.bytes24 a.data) 0 := by
  have e : Pieces.bytes24 a.data = [Wire.u24 a.length.val.toNat] ++ [a.data] := by
    show [Wire.u24 a.data.length, a.data] = [Wire.u24 a.length.val.toNat, a.data]
    rw [h.2]
  rw [e]
  refine Splits.seq (splits_u24 a.length)
    (t := fun k _ w => do let _ ← w.write a.data; Pure.pure (k + a.data.length)) ?_
  exact Splits.write_const (by simp)

theorem splits_setupCode (c : SetupConnectionErrorCode) :
    Splits (encoder c) (Pieces.str (Wire.setupErrorString c)) 0 := by
  have := splits_str (max := 255) _ (lawfulCode_setup.ok c).1
  rw [(lawfulCode_setup.ok c).2] at this
  exact this

theorem splits_openCode (c : OpenMiningChannelErrorCode) :
    Splits (encoder c) (Pieces.str (Wire.openErrorString c)) 0 := by
  have := splits_str (max := 255) _ (lawfulCode_open.ok c).1
  rw [(lawfulCode_open.ok c).2] at this
  exact this

theorem splits_setupMsg {all : UInt32} (m : SetupConnectionMsg all) (h : Wire.SetupConnectionMsgOK m) :
    Splits (encoder m) (Pieces.setupConnectionMsg m) 0 := by
  have e : Pieces.setupConnectionMsg m = [Wire.u16 m.min_version] ++ ([Wire.u16 m.max_version] ++
      ([Wire.u32 m.flags.bits] ++ (Pieces.str m.endpoint_host.data ++ ([Wire.u16 m.endpoint_port] ++
      (Pieces.str m.vendor.data ++ (Pieces.str m.hardware_version.data ++ (Pieces.str m.firmware.data ++
      Pieces.str m.device_id.data))))))) := rfl
  rw [e]
  exact Splits.seq (splits_u16 m.min_version)
    (Splits.seq (splits_u16 m.max_version)
    (Splits.seq (splits_flags m.flags)
    (Splits.seq (splits_str m.endpoint_host h.host)
    (Splits.seq (splits_u16 m.endpoint_port)
    (Splits.seq (splits_str m.vendor h.vendor)
    (Splits.seq (splits_str m.hardware_version h.hw)
    (Splits.seq (splits_str m.firmware h.fw)
    (Splits.seq_last (splits_str m.device_id h.dev)
    (Splits.pure (by omega))))))))))

theorem splits_setupConnection (m : SetupConnection) (h : Wire.SetupConnectionOK m) :
    Splits (encoder m) (Pieces.setupConnection m) 0 := by
  cases m with
  | mining v =>
    exact Splits.seq (c1 := [[0]]) (splits_u8 0)
      (Splits.seq_last (splits_setupMsg v h) (Splits.pure (by simp)))
  | jobNegotiation v =>
    exact Splits.seq (c1 := [[1]]) (splits_u8 1)
      (Splits.seq_last (splits_setupMsg v h) (Splits.pure (by simp)))

theorem splits_setupSuccess {all : UInt32} (m : SetupConnectionSuccess all) :
    Splits (encoder m) (Pieces.setupConnectionSuccess m) 0 :=
  Splits.seq (c1 := [_]) (splits_u16 m.used_version)
    (Splits.seq_last (splits_flags m.flags) (Splits.pure (by omega)))

theorem splits_setupError {all : UInt32} (m : SetupConnectionError all) :
    Splits (encoder m) (Pieces.setupConnectionError m) 0 :=
  Splits.seq (c1 := [_]) (splits_flags m.flags)
    (Splits.seq_last (splits_setupCode m.error_code) (Splits.pure (by omega)))

theorem splits_channelEndpointChanged (m : ChannelEndpointChanged) :
    Splits (encoder m) (Pieces.channelEndpointChanged m) 0 := splits_u32 m.channel_id

theorem splits_openStandard (m : OpenStandardMiningChannel) (h : Wire.StrOK m.user_identity) :
    Splits (encoder m) (Pieces.openStandardMiningChannel m) 0 :=
  Splits.seq (c1 := [_]) (splits_u32 m.request_id)
    (Splits.seq (splits_str m.user_identity h)
    (Splits.seq (c1 := [_]) (splits_f32 m.nominal_hash_rate)
    (Splits.seq_last (splits_u256 m.max_target) (Splits.pure (by omega)))))

theorem splits_openExtended (m : OpenExtendedMiningChannel) (h : Wire.StrOK m.user_identity) :
    Splits (encoder m) (Pieces.openExtendedMiningChannel m) 0 :=
  Splits.seq (c1 := [_]) (splits_u32 m.request_id)
    (Splits.seq (splits_str m.user_identity h)
    (Splits.seq (c1 := [_]) (splits_f32 m.nominal_hash_rate)
    (Splits.seq (c1 := [_]) (splits_u256 m.max_target)
    (Splits.seq_last (splits_u16 m.min_extranonce_size) (Splits.pure (by omega))))))

theorem splits_openStandardSuccess (m : OpenStandardMiningChannelSuccess)
    (h : Wire.B8OK m.extranonce_prefix) :
    Splits (encoder m) (Pieces.openStandardMiningChannelSuccess m) 0 :=
  Splits.seq (c1 := [_]) (splits_u32 m.request_id)
    (Splits.seq (c1 := [_]) (splits_u32 m.channel_id)
    (Splits.seq (c1 := [_]) (splits_u256 m.target)
    (Splits.seq (splits_b8 m.extranonce_prefix h)
    (Splits.seq_last (splits_u32 m.group_channel_id) (Splits.pure (by omega))))))

theorem splits_openExtendedSuccess (m : OpenExtendedMiningChannelSuccess)
    (h : Wire.B8OK m.extranonce_prefix) :
    Splits (encoder m) (Pieces.openExtendedMiningChannelSuccess m) 0 :=
  Splits.seq (c1 := [_]) (splits_u32 m.request_id)
    (Splits.seq (c1 := [_]) (splits_u32 m.channel_id)
    (Splits.seq (c1 := [_]) (splits_u256 m.target)
    (Splits.seq (c1 := [_]) (splits_u16 m.extranonce_size)
    (Splits.seq_last (splits_b8 m.extranonce_prefix h) (Splits.pure (by omega))))))

theorem splits_openError {kind : ChannelKind} (m : OpenMiningChannelError kind) :
    Splits (encoder m) (Pieces.openMiningChannelError m) 0 :=
  Splits.seq (c1 := [_]) (splits_u32 m.request_id)
    (Splits.seq_last (splits_openCode m.error_code) (Splits.pure (by omega)))

theorem splits_updateChannel (m : UpdateChannel) : Splits (encoder m) (Pieces.updateChannel m) 0 :=
  Splits.seq (c1 := [_]) (splits_u32 m.channel_id)
    (Splits.seq (c1 := [_]) (splits_f32 m.nominal_hash_rate)
    (Splits.seq_last (splits_u256 m.max_target) (Splits.pure (by omega))))

theorem splits_signatureNoiseMessage {E : SigScheme} (m : SignatureNoiseMessage E) :
    Splits (encoder m) (Pieces.signatureNoiseMessage m) 0 :=
  Splits.seq (c1 := [_]) (splits_u16 m.version)
    (Splits.seq (c1 := [_]) (splits_u32 m.valid_from)
    (Splits.seq (c1 := [_]) (splits_u32 m.not_valid_after)
    (Splits.seq_last (Splits.writeBuf _) (Splits.pure (by omega)))))

theorem splits_signedCertificate (c : SignedCertificate) :
    Splits (encoder c) (Pieces.certBytes c.version c.valid_from c.not_valid_after c.public_key) 0 :=
  Splits.seq (c1 := [_]) (splits_u16 c.version)
    (Splits.seq (c1 := [_]) (splits_u32 c.valid_from)
    (Splits.seq (c1 := [_]) (splits_u32 c.not_valid_after)
    (Splits.seq_last (Splits.writeBuf _) (Splits.pure (by omega)))))

theorem splits_certificateFormat {E : SigScheme} (c : CertificateFormat E) :
    Splits (encoder c) (Pieces.certBytes c.signature_noise_message.version
      c.signature_noise_message.valid_from c.signature_noise_message.not_valid_after
      c.static_public_key) 0 :=
  Splits.seq (c1 := [_]) (splits_u16 _)
    (Splits.seq (c1 := [_]) (splits_u32 _)
    (Splits.seq (c1 := [_]) (splits_u32 _)
    (Splits.seq_last (Splits.writeBuf _) (Splits.pure (by omega)))))

theorem splits_field (t : Macro.Ty) (x : t.Val) (h : t.OK x) :
    Splits (fun _ w => t.ser w x) (Pieces.field t x) 0 := by
  cases t
  · cases x <;> exact Splits.writeBuf _
  · exact splits_u8 x
  · exact splits_u16 x
  · exact splits_u24 x
  · exact splits_u32 x
  · exact splits_f32 x
  · exact splits_u256 x
  · exact splits_str x h
  · exact splits_str x h
  · exact splits_b8 x h
  · exact splits_b8 x h
  · exact splits_b8 x h
  · exact splits_b16 x h
  · exact splits_b24 x h
  · exact splits_flags x
  · exact splits_setupCode x
  · exact splits_openCode x

theorem serFields_pieces : (ts : List Macro.Ty) → (v : Macro.Fields ts) → Macro.FieldsOK ts v →
    ∃ ns : List Nat, ns.sum = (Pieces.fields ts v).flatten.length ∧
      ∀ (σ : Type) (w : Writer σ), Macro.serFields w ts v =
        (do writeAll w (Pieces.fields ts v); pure ns)
  | [], _, _ => ⟨[], rfl, fun σ w => rfl⟩
  | t :: ts, (x, xs), h => by
    obtain ⟨ns, h2, h3⟩ := serFields_pieces ts xs h.2
    have he := splits_field t x h.1
    refine ⟨(Pieces.field t x).flatten.length :: ns, ?_, ?_⟩
    · simp [Pieces.fields, h2]
    · intro σ w
      have he := he σ w
      simp only [Macro.serFields, he, h3, Pieces.fields, writeAll_append, SM.bind_assoc', SM.pure_bind',
        Nat.zero_add]

theorem splits_msg {d : Macro.Decl} (m : Macro.Msg d) (h : Macro.FieldsOK d.fields m.fields) :
    Splits (encoder m) (Pieces.fields d.fields m.fields) 0 := by
  obtain ⟨ns, h2, h3⟩ := serFields_pieces d.fields m.fields h
  intro σ w
  show (Macro.serFields w d.fields m.fields >>= fun c => pure c.sum) = _
  rw [h3, SM.bind_assoc']
  simp only [SM.pure_bind', h2, Nat.zero_add]

/-! ## What the writer sees -/

theorem writeAll_ok {σ : Type} (w : Writer σ) : ∀ (cs : List Bytes) (s s' : σ),
    writeAll w cs s = (.ok (), s') ↔ ∃ took, Offered w cs took s s'
  | [], s, s' => by
    constructor
    · intro h
      have h : s = s' := (Prod.mk.inj h).2
      subst h
      exact ⟨[], .done s⟩
    · rintro ⟨_, h⟩
      cases h
      rfl
  | c :: cs, s, s' => by
    rw [writeAll, SM.bind_run]
    rcases hc : w.write c s with ⟨r, s1⟩
    cases r with
    | ok n =>
      simp only []
      rw [writeAll_ok w cs s1 s']
      constructor
      · rintro ⟨took, h⟩
        exact ⟨n :: took, .next hc h⟩
      · rintro ⟨_, h⟩
        cases h with
        | next h1 h2 =>
          rw [hc] at h1
          cases h1
          exact ⟨_, h2⟩
    | err e =>
      simp only []
      constructor
      · intro h; cases h
      · rintro ⟨_, h⟩
        cases h with
        | next h1 h2 => rw [hc] at h1; cases h1
    | panic =>
      simp only []
      constructor
      · intro h; cases h
      · rintro ⟨_, h⟩
        cases h with
        | next h1 h2 => rw [hc] at h1; cases h1

theorem stops_cons {σ : Type} {w : Writer σ} {c : Bytes} {cs : List Bytes} {s s1 s' : σ} {n : Nat}
    {out : Out Error Nat} (hc : w.write c s = (.ok n, s1)) :
    StopsAt w (c :: cs) s out s' ↔ StopsAt w cs s1 out s' := by
  constructor
  · rintro ⟨hn, before, p, after, took, s2, he, ho, hp⟩
    refine ⟨hn, ?_⟩
    cases ho with
    | done s =>
      injection he with h1 h2
      subst h1
      rw [hc] at hp
      exact absurd (congrArg Prod.fst hp).symm (hn n)
    | next h1 h2 =>
      injection he with e1 e2
      subst e1
      rw [hc] at h1
      cases h1
      exact ⟨_, _, _, _, _, e2, h2, hp⟩
  · rintro ⟨hn, before, p, after, took, s2, he, ho, hp⟩
    exact ⟨hn, c :: before, p, after, n :: took, s2, by rw [he]; rfl, .next hc ho, hp⟩

theorem stops_here {σ : Type} {w : Writer σ} {c : Bytes} {cs : List Bytes} {s s1 s' : σ}
    {r out : Out Error Nat} (hc : w.write c s = (r, s1)) (hr : ∀ n, r ≠ .ok n) :
    StopsAt w (c :: cs) s out s' ↔ r = out ∧ s1 = s' := by
  constructor
  · rintro ⟨hn, before, p, after, took, s2, he, ho, hp⟩
    cases ho with
    | done s =>
      injection he with h1 h2
      subst h1
      rw [hc] at hp
      exact Prod.mk.inj hp
    | next h1 h2 =>
      injection he with e1 e2
      subst e1
      rw [hc] at h1
      exact absurd (congrArg Prod.fst h1) (hr _)
  · rintro ⟨rfl, rfl⟩
    exact ⟨hr, [], c, cs, [], s, rfl, .done s, hc⟩

theorem stops_nil {σ : Type} {w : Writer σ} {s s' : σ} {out : Out Error Nat} :
    ¬ StopsAt w [] s out s' := by
  rintro ⟨hn, before, p, after, took, s2, he, ho, hp⟩
  cases before <;> cases he

/-- Running the calls and returning a fixed value. -/
theorem writeAll_stops {σ : Type} (w : Writer σ) (k : Nat) : ∀ (cs : List Bytes) (s s' : σ)
    (out : Out Error Nat), (∀ n, out ≠ .ok n) →
    ((do writeAll w cs; pure k : SM σ Error Nat) s = (out, s') ↔ StopsAt w cs s out s')
  | [], s, s', out, hn => by
    constructor
    · intro h
      exact absurd (congrArg Prod.fst h).symm (hn k)
    · intro h
      exact absurd h stops_nil
  | c :: cs, s, s', out, hn => by
    have ih := writeAll_stops w k cs
    rcases hc : w.write c s with ⟨r, s1⟩
    have e : (do writeAll w (c :: cs); pure k : SM σ Error Nat) s =
        (w.write c >>= fun _ => (do writeAll w cs; pure k : SM σ Error Nat)) s := by
      rw [writeAll, SM.bind_assoc']
    rw [e, SM.bind_run, hc]
    cases r with
    | ok n =>
      simp only []
      rw [ih s1 s' out hn, stops_cons hc]
    | err x =>
      simp only []
      rw [stops_here hc (by intro n hh; cases hh)]
      constructor
      · intro h; exact Prod.mk.inj h
      · rintro ⟨rfl, rfl⟩; rfl
    | panic =>
      simp only []
      rw [stops_here hc (by intro n hh; cases hh)]
      constructor
      · intro h; exact Prod.mk.inj h
      · rintro ⟨rfl, rfl⟩; rfl

theorem writeAll_pure_ok {σ : Type} (w : Writer σ) (k : Nat) (cs : List Bytes) (s s' : σ) (n : Nat) :
    (do writeAll w cs; pure k : SM σ Error Nat) s = (.ok n, s') ↔
      n = k ∧ ∃ took, Offered w cs took s s' := by
  rw [SM.bind_run, ← writeAll_ok]
  rcases writeAll w cs s with ⟨r, s1⟩
  cases r with
  | ok u =>
    simp only [SM.pure_run]
    constructor
    · intro h
      have h1 := Out.ok.inj (Prod.mk.inj h).1
      have h2 := (Prod.mk.inj h).2
      exact ⟨h1.symm, by rw [h2]⟩
    · rintro ⟨rfl, h2⟩
      rw [(Prod.mk.inj h2).2]
  | err e =>
    constructor
    · intro h; cases h
    · rintro ⟨_, h⟩; cases h
  | panic =>
    constructor
    · intro h; cases h
    · rintro ⟨_, h⟩; cases h

theorem Splits.emits {s : Enc} {cs : List Bytes} (h : Splits s cs 0) : Emits s cs.flatten 0 :=
  ⟨cs, rfl, h⟩

theorem Splits.writesBy {α : Type} [Serializable α] {m : α} {cs : List Bytes}
    (h : Splits (encoder m) cs 0) : WritesBy m cs := by
  refine ⟨h.emits.serialize, ?_, ?_⟩
  · intro σ w s s' n
    have e : Serializable.ser w m = _ := h σ w
    rw [e, writeAll_pure_ok, Nat.zero_add]
  · intro σ w s s' out hn
    have e : Serializable.ser w m = _ := h σ w
    rw [e, writeAll_stops w _ cs s s' out hn]

/-! ## C100 -/

/-- Every message that a constructor returns is offered to the writer field by field, a string or byte
string in two pieces. -/
theorem C100_pieces :
    (∀ all (m : SetupConnectionMsg all), Built m → WritesBy m (Pieces.setupConnectionMsg m)) ∧
    (∀ all (m : SetupConnectionSuccess all), Built m → WritesBy m (Pieces.setupConnectionSuccess m)) ∧
    (∀ all (m : SetupConnectionError all), Built m → WritesBy m (Pieces.setupConnectionError m)) ∧
    (∀ m : SetupConnection, Built m → WritesBy m (Pieces.setupConnection m)) ∧
    (∀ m : ChannelEndpointChanged, Built m → WritesBy m (Pieces.channelEndpointChanged m)) ∧
    (∀ m : OpenStandardMiningChannel, Built m → WritesBy m (Pieces.openStandardMiningChannel m)) ∧
    (∀ m : OpenStandardMiningChannelSuccess, Built m →
      WritesBy m (Pieces.openStandardMiningChannelSuccess m)) ∧
    (∀ m : OpenExtendedMiningChannel, Built m → WritesBy m (Pieces.openExtendedMiningChannel m)) ∧
    (∀ m : OpenExtendedMiningChannelSuccess, Built m →
      WritesBy m (Pieces.openExtendedMiningChannelSuccess m)) ∧
    (∀ kind (m : OpenMiningChannelError kind), Built m → WritesBy m (Pieces.openMiningChannelError m)) ∧
    (∀ m : UpdateChannel, Built m → WritesBy m (Pieces.updateChannel m)) :=
  ⟨fun _ m h => (splits_setupMsg m ((built_setupMsg m).mp h)).writesBy,
    fun _ m _ => (splits_setupSuccess m).writesBy,
    fun _ m _ => (splits_setupError m).writesBy,
    fun m h => (splits_setupConnection m ((built_setupConnection m).mp h)).writesBy,
    fun m _ => (splits_channelEndpointChanged m).writesBy,
    fun m h => (splits_openStandard m ((built_openStandard m).mp h)).writesBy,
    fun m h => (splits_openStandardSuccess m ((built_openStandardSuccess m).mp h)).writesBy,
    fun m h => (splits_openExtended m ((built_openExtended m).mp h)).writesBy,
    fun m h => (splits_openExtendedSuccess m ((built_openExtendedSuccess m).mp h)).writesBy,
    fun _ m _ => (splits_openError m).writesBy,
    fun m _ => (splits_updateChannel m).writesBy⟩

/-- The same for every message declared with `impl_message!`, whatever its fields. -/
theorem C100_declared {d : Macro.Decl} (m : Macro.Msg d) (h : Macro.FieldsOK d.fields m.fields) :
    WritesBy m (Pieces.fields d.fields m.fields) := (splits_msg m h).writesBy

/-- The same for what the authority signs and for the message that carries the signature. -/
theorem C100_certificates {E : SigScheme} :
    (∀ m : SignatureNoiseMessage E, WritesBy m (Pieces.signatureNoiseMessage m)) ∧
    (∀ c : SignedCertificate,
      WritesBy c (Pieces.certBytes c.version c.valid_from c.not_valid_after c.public_key)) ∧
    (∀ c : CertificateFormat E, WritesBy c (Pieces.certBytes c.signature_noise_message.version
      c.signature_noise_message.valid_from c.signature_noise_message.not_valid_after
      c.static_public_key)) :=
  ⟨fun m => (splits_signatureNoiseMessage m).writesBy, fun c => (splits_signedCertificate c).writesBy,
    fun c => (splits_certificateFormat c).writesBy⟩

/-! ### Frames -/

theorem frame_pieces {σ : Type} (w : Writer σ) (m : Message) (h : m.payload.length < 2 ^ 24) :
    Serializable.ser w m = (do
      writeAll w (Pieces.frameHeader m)
      let k ← w.write m.payload
      pure (6 + k)) := by
  have hd : Splits (headerEnc m ⟨UInt32.ofNat m.payload.length⟩) (Pieces.frameHeader m) 0 := by
    have e : Pieces.frameHeader m = [Wire.u16 (extField m.message_type)] ++
        ([[m.message_type.msgType]] ++ [Wire.u24 (UInt32.ofNat m.payload.length).toNat]) := by
      rw [wire_extField, (u24_ok h).2]
      show [_, [UInt8.ofNat (Wire.msgNumber m.message_type)], _] = [_, [m.message_type.msgType], _]
      rw [← msgType_toNat, UInt8.ofNat_toNat]
    rw [e]
    exact Splits.seq (splits_u16 _) (Splits.seq (splits_u8 _)
      (Splits.seq_last (splits_u24 ⟨UInt32.ofNat m.payload.length⟩) (Splits.pure (by omega))))
  rw [message_ser, (u24_ok h).1]
  simp only [SM.lift_ok, SM.pure_bind', hd σ w, SM.bind_assoc', Nat.zero_add]
  rfl

theorem forget_ok {σ : Type} (x : SM σ Error Nat) (f g : Nat → Nat) (s s' : σ) (out : Out Error Nat)
    (hn : ∀ n, out ≠ .ok n) :
    (x >>= fun k => (pure (f k) : SM σ Error Nat)) s = (out, s') →
      (x >>= fun k => (pure (g k) : SM σ Error Nat)) s = (out, s') := by
  rw [SM.bind_run, SM.bind_run]
  rcases x s with ⟨r, s1⟩
  cases r with
  | ok k =>
    simp only [SM.pure_run]
    intro h
    exact absurd (congrArg Prod.fst h).symm (hn _)
  | err e => exact id
  | panic => exact id

/-- A frame goes out in four pieces, and its count is the header's six bytes plus whatever `write` reported
for the payload. -/
theorem C100_frame (m : Message) (h : m.payload.length < 2 ^ 24) :
    serialize m = .ok (Pieces.frameHeader m ++ [m.payload]).flatten ∧
    (∀ (σ : Type) (w : Writer σ) (s s' : σ) (n : Nat), Serializable.ser w m s = (.ok n, s') ↔
      ∃ took s1 k, Offered w (Pieces.frameHeader m) took s s1 ∧ w.write m.payload s1 = (.ok k, s') ∧
        n = 6 + k) ∧
    (∀ (σ : Type) (w : Writer σ) (s s' : σ) (out : Out Error Nat), (∀ n, out ≠ .ok n) →
      (Serializable.ser w m s = (out, s') ↔ StopsAt w (Pieces.frameHeader m ++ [m.payload]) s out s')) := by
  refine ⟨?_, ?_, ?_⟩
  · have : (Pieces.frameHeader m ++ [m.payload]).flatten = Wire.frame m := by
      simp [Pieces.frameHeader, Wire.frame]
    rw [this]
    unfold serialize
    rw [message_vec m h]
    simp
  · intro σ w s s' n
    rw [frame_pieces w m h, SM.bind_run]
    constructor
    · intro hr
      rcases ha : writeAll w (Pieces.frameHeader m) s with ⟨r, s1⟩
      rw [ha] at hr
      cases r with
      | ok u =>
        simp only [] at hr
        rw [SM.bind_run] at hr
        rcases hp : w.write m.payload s1 with ⟨r2, s2⟩
        rw [hp] at hr
        cases r2 with
        | ok k =>
          simp only [SM.pure_run] at hr
          obtain ⟨took, ho⟩ := (writeAll_ok w _ _ _).mp ha
          refine ⟨took, s1, k, ho, ?_, (Out.ok.inj (Prod.mk.inj hr).1).symm⟩
          rw [hp, (Prod.mk.inj hr).2]
        | err e => cases hr
        | panic => cases hr
      | err e => cases hr
      | panic => cases hr
    · rintro ⟨took, s1, k, ho, hp, rfl⟩
      rw [(writeAll_ok w _ _ _).mpr ⟨took, ho⟩]
      simp only []
      rw [SM.bind_run, hp]
      rfl
  · intro σ w s s' out hn
    rw [frame_pieces w m h, ← writeAll_stops w 0 _ s s' out hn, writeAll_append]
    have e1 : (do writeAll w (Pieces.frameHeader m); let k ← w.write m.payload; pure (6 + k) : SM σ Error Nat) =
        ((writeAll w (Pieces.frameHeader m) >>= fun _ => w.write m.payload) >>= fun k => pure (6 + k)) := by
      rw [SM.bind_assoc']
    have e2 : (do (do writeAll w (Pieces.frameHeader m); writeAll w [m.payload]); pure 0 : SM σ Error Nat) =
        ((writeAll w (Pieces.frameHeader m) >>= fun _ => w.write m.payload) >>= fun _ => pure 0) := by
      simp only [writeAll, SM.bind_assoc', SM.pure_bind']
    rw [e1, e2]
    exact ⟨forget_ok _ _ (fun _ => 0) _ _ _ hn, forget_ok _ _ _ _ _ _ hn⟩

/-! ### What arrives -/

theorem offered_got {σ : Type} {w : Writer σ} {got : σ → Bytes} (hs : Stream w got) {ps : List Bytes}
    {took : List Nat} {s s' : σ} (h : Offered w ps took s s') :
    got s' = got s ++ (cut ps took).flatten ∧
      ((cut ps took).flatten.length ≤ ps.flatten.length) ∧
      ((cut ps took).flatten.length = ps.flatten.length → cut ps took = ps) := by
  induction h with
  | done s => exact ⟨by simp [cut], Nat.le_refl _, fun _ => rfl⟩
  | @next p ps n ns s s1 s2 h1 h2 ih =>
    obtain ⟨ih1, ih2, ih3⟩ := ih
    obtain ⟨hn, hg⟩ := hs.took _ _ _ _ h1
    refine ⟨?_, ?_, ?_⟩
    · rw [ih1, hg]; simp [cut]
    · simp only [cut, List.flatten_cons, List.length_append, List.length_take]; omega
    · simp only [cut, List.flatten_cons, List.length_append, List.length_take]
      intro hl
      rw [ih3 (by omega), List.take_of_length_le (by omega)]

section
variable {α : Type} [Serializable α] {m : α} {pieces : List Bytes}

/-- When the call returns `Ok`, what has arrived is the beginnings of the pieces, as far as the calls of
`write` took them: it is the message exactly if every call took the whole of its piece. -/
theorem C100_arrives (h : WritesBy m pieces) {σ : Type} {w : Writer σ} {got : σ → Bytes}
    (hs : Stream w got) {s s' : σ} {n : Nat} (hr : Serializable.ser w m s = (.ok n, s')) :
    ∃ took, Offered w pieces took s s' ∧ got s' = got s ++ (cut pieces took).flatten ∧
      (got s' = got s ++ pieces.flatten ↔ cut pieces took = pieces) := by
  obtain ⟨_, took, ho⟩ := (h.ok _ _ _ _ _).mp hr
  obtain ⟨h1, h2, h3⟩ := offered_got hs ho
  refine ⟨took, ho, h1, ?_, ?_⟩
  · intro he
    rw [h1] at he
    exact h3 (congrArg List.length (List.append_cancel_left he))
  · intro he
    rw [h1, he]

/-- When the call returns an error, what has arrived is the beginnings of the pieces before the one whose
`write` failed; the caller is not told how many. -/
theorem C100_fails (h : WritesBy m pieces) {σ : Type} {w : Writer σ} {got : σ → Bytes} (hs : Stream w got)
    {s s' : σ} {e : Error} (hr : Serializable.ser w m s = (.err e, s')) :
    ∃ before p after took s1, pieces = before ++ p :: after ∧ Offered w before took s s1 ∧
      w.write p s1 = (.err e, s') ∧ got s' = got s ++ (cut before took).flatten := by
  obtain ⟨_, before, p, after, took, s1, he, ho, hp⟩ :=
    (h.stops _ _ _ _ (.err e) (by intro n hh; cases hh)).mp hr
  refine ⟨before, p, after, took, s1, he, ho, hp, ?_⟩
  rw [hs.failed _ _ _ _ hp, (offered_got hs ho).1]

theorem cut_whole {σ : Type} {w : Writer σ} (hw : ∀ b s k s', w.write b s = (.ok k, s') → k = b.length)
    {ps : List Bytes} {took : List Nat} {s s' : σ} (h : Offered w ps took s s') : cut ps took = ps := by
  induction h with
  | done s => rfl
  | next h1 h2 ih => rw [cut, ih, hw _ _ _ _ h1, List.take_length]

/-- With a writer that never takes part of a buffer, `Ok` means that the message has arrived, and an error
that a beginning of it has, which is not all of it unless the rest is empty. -/
theorem C100_all_or_error (h : WritesBy m pieces) {σ : Type} {w : Writer σ} {got : σ → Bytes}
    (hs : Stream w got) (hw : ∀ b s k s', w.write b s = (.ok k, s') → k = b.length) (s : σ) :
    (∀ n s', Serializable.ser w m s = (.ok n, s') → got s' = got s ++ pieces.flatten) ∧
    (∀ e s', Serializable.ser w m s = (.err e, s') →
      ∃ before after, pieces = before ++ after ∧ after ≠ [] ∧ got s' = got s ++ before.flatten) := by
  constructor
  · intro n s' hr
    obtain ⟨took, ho, _, hi⟩ := C100_arrives h hs hr
    exact hi.mpr (cut_whole hw ho)
  · intro e s' hr
    obtain ⟨before, p, after, took, s1, he, ho, hp, hg⟩ := C100_fails h hs hr
    rw [cut_whole hw ho] at hg
    exact ⟨before, p :: after, he, by simp, hg⟩

theorem limit_stream (k : Nat) : Stream (limitWriter k) id := by
  constructor
  · intro b s n s' h
    have h1 := Out.ok.inj (Prod.mk.inj h).1
    have h2 := (Prod.mk.inj h).2
    subst h1 h2
    refine ⟨Nat.min_le_left _ _, ?_⟩
    show s ++ b.take k = s ++ b.take (min b.length k)
    rw [Nat.min_comm, ← List.take_take, List.take_length]
  · intro b s e s' h
    cases h

theorem limit_offered (k : Nat) : ∀ (ps : List Bytes) (s : Bytes),
    ∃ took, Offered (limitWriter k) ps took s (s ++ (ps.map (List.take k)).flatten)
  | [], s => ⟨[], by simpa using Offered.done s⟩
  | p :: ps, s => by
    obtain ⟨took, h⟩ := limit_offered k ps (s ++ p.take k)
    refine ⟨min p.length k :: took, .next rfl ?_⟩
    rw [List.map_cons, List.flatten_cons, ← List.append_assoc]
    exact h

/-- A writer that takes at most `k` bytes a call gets the first `k` bytes of every piece.  The call returns
`Ok` with the full size all the same, and the message arrives whole only if no piece is longer than `k`. -/
theorem C100_limit (h : WritesBy m pieces) (k : Nat) (s : Bytes) :
    Serializable.ser (limitWriter k) m s =
      (.ok pieces.flatten.length, s ++ (pieces.map (List.take k)).flatten) ∧
    (s ++ (pieces.map (List.take k)).flatten = s ++ pieces.flatten ↔ ∀ p ∈ pieces, p.length ≤ k) := by
  refine ⟨(h.ok _ _ _ _ _).mpr ⟨rfl, limit_offered k pieces s⟩, ?_⟩
  constructor
  · intro he
    have he := congrArg List.length (List.append_cancel_left he)
    revert he
    have key : ∀ ps : List Bytes, ((ps.map (List.take k)).flatten.length ≤ ps.flatten.length) ∧
        ((ps.map (List.take k)).flatten.length = ps.flatten.length → ∀ p ∈ ps, p.length ≤ k) := by
      intro ps
      induction ps with
      | nil => exact ⟨Nat.le_refl _, fun _ p hp => absurd hp List.not_mem_nil⟩
      | cons q qs ih =>
        simp only [List.map_cons, List.flatten_cons, List.length_append, List.length_take]
        refine ⟨by omega, ?_⟩
        intro hl p hp
        rcases List.mem_cons.mp hp with rfl | hp
        · omega
        · exact ih.2 (by omega) p hp
    exact (key pieces).2
  · intro ha
    have : pieces.map (List.take k) = pieces := by
      conv => rhs; rw [← List.map_id pieces]
      exact List.map_congr_left fun p hp => List.take_of_length_le (ha p hp)
    rw [this]

theorem full_stream (e : Error) : Stream (fullWriter e) Prod.fst := by
  constructor
  · intro b s n s' h
    change (if b.length ≤ s.2 then _ else _) = _ at h
    by_cases hb : b.length ≤ s.2
    · rw [if_pos hb] at h
      have h1 := Out.ok.inj (Prod.mk.inj h).1
      have h2 := (Prod.mk.inj h).2
      subst h1 h2
      exact ⟨Nat.le_refl _, by simp⟩
    · rw [if_neg hb] at h
      cases h
  · intro b s x s' h
    change (if b.length ≤ s.2 then _ else _) = _ at h
    by_cases hb : b.length ≤ s.2
    · rw [if_pos hb] at h
      cases h
    · rw [if_neg hb] at h
      rw [← (Prod.mk.inj h).2]

/-- After an error the caller can only start again, and the beginning that had arrived stays in front: what
a second, successful call leaves behind is that beginning and then the message. -/
theorem C100_again (h : WritesBy m pieces) {σ : Type} {w : Writer σ} {got : σ → Bytes} (hs : Stream w got)
    (hw : ∀ b s k s', w.write b s = (.ok k, s') → k = b.length) {s s1 s2 : σ} {e : Error} {n : Nat}
    (h1 : Serializable.ser w m s = (.err e, s1)) (h2 : Serializable.ser w m s1 = (.ok n, s2)) :
    ∃ before after, pieces = before ++ after ∧ after ≠ [] ∧
      got s2 = got s ++ before.flatten ++ pieces.flatten := by
  obtain ⟨before, after, he, hne, hg⟩ := (C100_all_or_error h hs hw s).2 _ _ h1
  exact ⟨before, after, he, hne, by rw [(C100_all_or_error h hs hw s1).1 _ _ h2, hg]⟩

end

/-! ### A message that turns into another one -/

/-- Opens a channel for a user with a name of 40 characters. -/
def longUser : OpenStandardMiningChannel :=
  ⟨7, ⟨40, "0123456789012345678901234567890123456789"⟩, ⟨0x41424344⟩, ⟨Arr.replicate 32 0x45⟩⟩

theorem longUser_built : Built longUser :=
  ⟨7, "0123456789012345678901234567890123456789", ⟨0x41424344⟩, ⟨Arr.replicate 32 0x45⟩, by decide⟩

/-- What the reader gets from a writer that took at most 32 bytes a call: eight characters of the name are
gone, and the hash rate and part of the target have become part of the name. -/
def garbled : OpenStandardMiningChannel :=
  ⟨7, ⟨40, "01234567890123456789012345678901DCBAEEEE"⟩, ⟨0x45454545⟩,
    ⟨⟨List.replicate 24 0x45 ++ [7, 0, 0, 0, 40, 0x30, 0x31, 0x32], by decide⟩⟩⟩

set_option maxRecDepth 20000 in
/-- Sent twice through a writer that takes at most 32 bytes a call, the message is read as another valid
one; both calls returned `Ok` with the full size. -/
theorem C100_garbled :
    Built longUser ∧ Built garbled ∧ garbled ≠ longUser ∧
    ∃ b1 b2, Serializable.ser (limitWriter 32) longUser [] = (.ok 81, b1) ∧
      Serializable.ser (limitWriter 32) longUser b1 = (.ok 81, b2) ∧
      deserialize OpenStandardMiningChannel b2 = .ok garbled := by
  refine ⟨longUser_built, ⟨7, "01234567890123456789012345678901DCBAEEEE", ⟨0x45454545⟩, garbled.max_target,
    by decide⟩, by decide, ?_⟩
  exact ⟨_, _, rfl, rfl, by decide⟩

/-! ### The hypotheses can be met -/

example : WritesBy longUser [[7, 0, 0, 0], [40],
    [0x30, 0x31, 0x32, 0x33, 0x34, 0x35, 0x36, 0x37, 0x38, 0x39, 0x30, 0x31, 0x32, 0x33, 0x34, 0x35, 0x36,
     0x37, 0x38, 0x39, 0x30, 0x31, 0x32, 0x33, 0x34, 0x35, 0x36, 0x37, 0x38, 0x39, 0x30, 0x31, 0x32, 0x33,
     0x34, 0x35, 0x36, 0x37, 0x38, 0x39], [0x44, 0x43, 0x42, 0x41], List.replicate 32 0x45] :=
  C100_pieces.2.2.2.2.2.1 longUser longUser_built

/-- A call that fails half-way, and a second one that does not, after room was made. -/
example : Serializable.ser (fullWriter .ioError) (⟨5, ⟨0x41424344⟩, ⟨Arr.replicate 32 9⟩⟩ : UpdateChannel)
    ([], 10) = (.err .ioError, ([5, 0, 0, 0, 0x44, 0x43, 0x42, 0x41], 2)) := by decide

example : Stream (limitWriter 3) id := limit_stream 3
example : Stream (fullWriter .unimplemented) Prod.fst := full_stream _
example : ∀ b s k s', (fullWriter .unimplemented).write b s = (.ok k, s') → k = b.length := by
  intro b s k s' h
  change (if b.length ≤ s.2 then _ else _) = _ at h
  by_cases hb : b.length ≤ s.2
  · rw [if_pos hb] at h
    exact (Out.ok.inj (Prod.mk.inj h).1).symm
  · rw [if_neg hb] at h
    cases h

example : Macro.FieldsOK [.u32, .str0_32] ((5, ⟨2, "ab"⟩, ()) : Macro.Fields [.u32, .str0_32]) :=
  ⟨trivial, ⟨by decide, by decide⟩, trivial⟩

/-- A frame whose payload is cut: here the count says so. -/
example : Serializable.ser (limitWriter 3) (⟨.submitSharesStandard, [1, 2, 3, 4, 5]⟩ : Message) [] =
    (.ok 9, [0, 0x80, 0x1a, 5, 0, 0, 1, 2, 3]) := by decide

end SV2
