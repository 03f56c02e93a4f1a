import Verif.Model.Examples
import Verif.Props.Frame
/-!
# C59: the setup_connection example
-/

namespace SV2
open Law Examples Examples.Setup

theorem unwrap_ok {ε α : Type} (a : α) : unwrap (.ok a : Out ε α) = .ok a := rfl

theorem tryRead_fits (w : Bytes) (h : w.length ≤ 1024) :
    tryRead freshBuffer w = w ++ List.replicate (1024 - w.length) 0 := by
  unfold tryRead freshBuffer
  rw [List.take_of_length_le (by rw [List.length_replicate]; exact h), List.drop_replicate]

theorem tryRead_long (w : Bytes) (h : 1024 < w.length) : tryRead freshBuffer w = w.take 1024 := by
  unfold tryRead freshBuffer
  rw [List.length_replicate, List.drop_of_length_le (by rw [List.length_take, List.length_replicate]; omega),
    List.append_nil]

/-- Sending a message is writing the frame of its bytes. -/
theorem minerSend_eq {α : Type} [Frameable α] {m : α} {e : Bytes} (h : serialize m = .ok e)
    (hlen : e.length ≤ 2000) : minerSend m = .ok (Wire.frame ⟨Frameable.messageType α, e⟩) := by
  unfold minerSend frame
  rw [h]
  show unwrap (serialize (⟨Frameable.messageType α, e⟩ : Message)) = _
  rw [(C18_roundtrip ⟨Frameable.messageType α, e⟩ (by show e.length < _; omega)).1]
  rfl

/-- What arrives is read back. -/
theorem arrives {α : Type} [Frameable α] {m : α} {e : Bytes} (h : RoundTrips m e) (hlen : e.length ≤ 1018) :
    deserialize Message (tryRead freshBuffer (Wire.frame ⟨Frameable.messageType α, e⟩)) =
      .ok ⟨Frameable.messageType α, e⟩ ∧ unframe α ⟨Frameable.messageType α, e⟩ = .ok m := by
  have hl : (Wire.frame ⟨Frameable.messageType α, e⟩).length ≤ 1024 := by
    rw [wire_frame_length]; show 6 + e.length ≤ _; omega
  constructor
  · rw [tryRead_fits _ hl]
    apply (C18_roundtrip ⟨Frameable.messageType α, e⟩ (by show e.length < _; omega)).2.1
    unfold IsSlice
    rw [List.length_append, List.length_replicate]
    omega
  · rw [(C22_unframe (α := α) ⟨Frameable.messageType α, e⟩).2 rfl]
    have := h.2.1 [] (by rw [List.append_nil]; exact isSlice_of_le hlen (by decide))
    rwa [List.append_nil] at this

/-- The reply to a valid mining connection. -/
def successReply (minVersion : UInt16) : SetupConnectionSuccess miningSuccessFlags :=
  ⟨minVersion, ⟨1, by decide⟩⟩

theorem reply_eq (v : MiningSetupConnection) (f : Message) (hf : f.message_type = .setupConnection) (buffer : Bytes)
    (h1 : deserialize Message buffer = .ok f) (h2 : unframe SetupConnection f = .ok (.mining v)) :
    poolHandle buffer = .ok (some (Wire.frame ⟨.setupConnectionSuccess,
      Wire.setupConnectionSuccess (successReply v.min_version)⟩)) := by
  have hs := minerSend_eq (lawful_setupSuccess.roundTrips (successReply v.min_version) trivial).1
    (by rw [size_setupSuccess]; decide)
  unfold poolHandle
  rw [h1]
  show (match f.message_type with
    | .setupConnection => _
    | _ => _) = _
  rw [hf]
  simp only [h2, unwrap_ok]
  show (minerSend (successReply v.min_version) >>= fun b => pure (some b)) = _
  rw [hs]
  rfl

/-- A connection that a miner asks for with any valid arguments, in a frame of at most 1024 bytes: the pool answers with
one message, which says that the version used is the lowest one the miner offered and sets bit 0 (the version field is
fixed) and no other, and the miner prints these flags. -/
theorem C59_exchange (minv maxv : UInt16) (flags : Flags miningSetupFlags) (host : String) (port : UInt16)
    (vendor hardware fw dev : String) (m : SetupConnection)
    (hm : SetupConnection.newMining minv maxv flags host port vendor hardware fw dev = .ok m) (w : Bytes)
    (hw : minerSend m = .ok w) (hl : w.length ≤ 1024) :
    ∃ reply f, poolHandle (tryRead freshBuffer w) = .ok (some reply) ∧
      deserialize Message reply = .ok f ∧
      unframe (SetupConnectionSuccess miningSuccessFlags) f = .ok ⟨minv, ⟨1, by decide⟩⟩ ∧
      minerHandle (tryRead freshBuffer reply) = .ok (some ⟨1, by decide⟩) := by
  have hb : Built m := .inl ⟨minv, maxv, flags, host, port, vendor, hardware, fw, dev, hm⟩
  have hv : ∃ v, m = .mining v ∧ v.min_version = minv := by
    unfold SetupConnection.newMining at hm
    obtain ⟨v, hv, hp⟩ := Out.bind_eq_ok hm
    cases hp
    exact ⟨v, rfl, (setup_new_iff.mp hv).1⟩
  obtain ⟨v, rfl, rfl⟩ := hv
  have rt := C11_roundtrip.2.2.2.1 _ hb
  have hle := size_setupConnection _ ((built_setupConnection _).mp hb)
  rw [minerSend_eq rt.1 (by omega)] at hw
  cases hw
  rw [wire_frame_length] at hl
  obtain ⟨h1, h2⟩ := arrives rt (by simp only at hl; omega)
  have rts := lawful_setupSuccess.roundTrips (successReply v.min_version) trivial
  have hls : (Wire.setupConnectionSuccess (successReply v.min_version)).length ≤ 1018 := by
    rw [size_setupSuccess]; decide
  obtain ⟨h3, h4⟩ := arrives rts hls
  refine ⟨_, _, reply_eq v _ rfl _ h1 h2, ?_, h4, ?_⟩
  · have := (C18_roundtrip ⟨.setupConnectionSuccess, Wire.setupConnectionSuccess (successReply v.min_version)⟩
      (by show (Wire.setupConnectionSuccess (successReply v.min_version)).length < _; omega)).2.1 []
      (by rw [List.append_nil]; unfold IsSlice; rw [wire_frame_length]; simp only; omega)
    rwa [List.append_nil] at this
  · unfold minerHandle
    erw [h3]
    simp only [unwrap_ok]
    show (unwrap (unframe (SetupConnectionSuccess miningSuccessFlags) _) >>= fun s => pure (some s.flags)) = _
    rw [h4]
    rfl

/-- The arguments of the example itself. -/
def exampleSetup : Result SetupConnection :=
  SetupConnection.newMining 2 2 ⟨1, by decide⟩ "0.0.0.0" 8545 "Bitmain" "S9i 13.5" "braiins-os-2018-09-22-1-hash"
    "some-uuid"

example : ∃ m w, exampleSetup = .ok m ∧ minerSend m = .ok w ∧ w.length = 81 := by
  refine ⟨_, _, rfl, rfl, by decide⟩

/-- A connection request that is valid but longer than the buffer makes the pool panic. -/
theorem C59_too_long (m : SetupConnection) (hb : Built m) (w : Bytes) (hw : minerSend m = .ok w)
    (hl : 1024 < w.length) : poolHandle (tryRead freshBuffer w) = .panic := by
  have rt := C11_roundtrip.2.2.2.1 _ hb
  have hle := size_setupConnection _ ((built_setupConnection _).mp hb)
  rw [minerSend_eq rt.1 (by omega)] at hw
  cases hw
  obtain ⟨e, he, hr⟩ := C13_truncation_frame ⟨Frameable.messageType SetupConnection, Wire.setupConnection m⟩
    (by show (Wire.setupConnection m).length < _; omega)
  rw [(C18_roundtrip ⟨Frameable.messageType SetupConnection, Wire.setupConnection m⟩
    (by show (Wire.setupConnection m).length < _; omega)).1] at he
  cases he
  obtain ⟨msg, hmsg⟩ := hr ((Wire.frame ⟨Frameable.messageType SetupConnection, Wire.setupConnection m⟩).take 1024)
    ((Wire.frame ⟨Frameable.messageType SetupConnection, Wire.setupConnection m⟩).drop 1024)
    (by intro h; have := congrArg List.length h; simp at this; omega) (List.take_append_drop _ _)
  unfold poolHandle
  rw [tryRead_long _ hl, hmsg]
  rfl

/-- A string of 255 bytes. -/
def longString : String := String.ofList (List.replicate 255 'a')

/-- There are such requests: a miner with four long strings. -/
theorem C59_too_long_exists : ∃ m w,
    SetupConnection.newMining 2 2 ⟨1, by decide⟩ longString 8545 longString longString longString longString = .ok m ∧
    minerSend m = .ok w ∧ 1024 < w.length := by
  have key : (match SetupConnection.newMining 2 2 ⟨1, by decide⟩ longString 8545 longString longString longString
      longString with
    | .ok m => match minerSend m with
      | .ok w => decide (1024 < w.length)
      | _ => false
    | _ => false) = true := by decide +kernel
  split at key
  · rename_i m hm
    split at key
    · rename_i w hw
      exact ⟨m, w, hm, hw, of_decide_eq_true key⟩
    · cases key
  · cases key

/-- Requests for job negotiation get no answer. -/
theorem C59_job_negotiation (minv maxv : UInt16) (flags : Flags jobNegotiationSetupFlags) (host : String)
    (port : UInt16) (vendor hardware fw dev : String) (m : SetupConnection)
    (hm : SetupConnection.newJobNegotiation minv maxv flags host port vendor hardware fw dev = .ok m) (w : Bytes)
    (hw : minerSend m = .ok w) (hl : w.length ≤ 1024) : poolHandle (tryRead freshBuffer w) = .ok none := by
  have hb : Built m := .inr ⟨minv, maxv, flags, host, port, vendor, hardware, fw, dev, hm⟩
  have hv : ∃ v, m = .jobNegotiation v := by
    unfold SetupConnection.newJobNegotiation at hm
    obtain ⟨v, hv, hp⟩ := Out.bind_eq_ok hm
    cases hp
    exact ⟨v, rfl⟩
  obtain ⟨v, rfl⟩ := hv
  have rt := C11_roundtrip.2.2.2.1 _ hb
  have hle := size_setupConnection _ ((built_setupConnection _).mp hb)
  rw [minerSend_eq rt.1 (by omega)] at hw
  cases hw
  rw [wire_frame_length] at hl
  obtain ⟨h1, h2⟩ := arrives rt (by simp only at hl; omega)
  unfold poolHandle
  rw [h1]
  simp only [unwrap_ok]
  show (unwrap (unframe SetupConnection _) >>= _) = _
  rw [h2]
  rfl

/-- Whatever arrives, the pool answers only a frame that contains a valid mining connection request (perhaps with more
bytes behind it), and the answer is determined by the lowest version offered. -/
theorem C59_reply_only_to_valid (buffer reply : Bytes) (hs : IsSlice buffer)
    (h : poolHandle buffer = .ok (some reply)) :
    ∃ (v : MiningSetupConnection) (e extra frame rest : Bytes), Built (SetupConnection.mining v) ∧
      serialize (SetupConnection.mining v) = .ok e ∧
      serialize (⟨.setupConnection, e ++ extra⟩ : Message) = .ok frame ∧ buffer = frame ++ rest ∧
      ∃ f, SV2.frame (⟨v.min_version, ⟨1, by decide⟩⟩ : SetupConnectionSuccess miningSuccessFlags) = .ok f ∧
        serialize f = .ok reply := by
  cases hd : deserialize Message buffer with
  | err e => unfold poolHandle at h; rw [hd] at h; cases h
  | panic => unfold poolHandle at h; rw [hd] at h; cases h
  | ok f =>
    obtain ⟨fb, rest, hf, hbuf⟩ := C12_canonical_frame buffer f hs hd
    obtain ⟨t, payload⟩ := f
    by_cases ht : t = .setupConnection
    case neg =>
      unfold poolHandle at h
      rw [hd] at h
      cases t <;> first | exact absurd rfl ht | cases h
    subst ht
    cases hu : unframe SetupConnection ⟨.setupConnection, payload⟩ with
    | err e => unfold poolHandle at h; rw [hd] at h; simp only [bind, Out.bind, hu, unwrap] at h; cases h
    | panic => unfold poolHandle at h; rw [hd] at h; simp only [bind, Out.bind, hu, unwrap] at h; cases h
    | ok c =>
      cases c with
      | jobNegotiation v =>
        unfold poolHandle at h; rw [hd] at h; simp only [bind, Out.bind, hu, unwrap] at h; cases h
      | mining v =>
        rw [reply_eq v _ rfl _ hd hu] at h
        cases h
        have hp : IsSlice payload := by
          obtain ⟨e', r', h1, h2, h3⟩ := message_inverts.deserialize hs hd
          unfold IsSlice at *
          rw [h1, h3, List.length_append, wire_frame_length] at hs
          simp only at hs
          omega
        rw [(C22_unframe (α := SetupConnection) ⟨.setupConnection, payload⟩).2 rfl] at hu
        obtain ⟨e, extra, he, hpe⟩ := C12_canonical.2.2.2.1 payload _ hp hu
        refine ⟨v, e, extra, fb, rest, C12_accepted_is_built.2.2.1 _ _ hp hu, he, ?_, hbuf, ?_⟩
        · rw [← hf, hpe]
        · refine ⟨⟨.setupConnectionSuccess, Wire.setupConnectionSuccess (successReply v.min_version)⟩, ?_, ?_⟩
          · unfold SV2.frame
            erw [(lawful_setupSuccess.roundTrips (successReply v.min_version) trivial).1]
            rfl
          · exact (C18_roundtrip _ (by
              show (Wire.setupConnectionSuccess (successReply v.min_version)).length < _
              rw [size_setupSuccess]; decide)).1

/-- Nothing protects the pool against a peer: bytes that are not a frame make it panic, and so does closing the
connection without sending anything (the buffer is then all zeros). -/
theorem C59_garbage : (∀ buffer, (deserialize Message buffer).isOk = false → poolHandle buffer = .panic) ∧
    poolHandle (tryRead freshBuffer []) = .panic := by
  refine ⟨?_, ?_⟩
  · intro buffer h
    unfold poolHandle
    cases hd : deserialize Message buffer with
    | ok f => rw [hd] at h; cases h
    | err e => rfl
    | panic => rfl
  · decide +kernel

/-- Frames of another type are ignored by both, whatever their payload. -/
theorem C59_others_ignored (buffer : Bytes) (f : Message) (h : deserialize Message buffer = .ok f) :
    (f.message_type ≠ .setupConnection → poolHandle buffer = .ok none) ∧
    (f.message_type ≠ .setupConnectionSuccess → minerHandle buffer = .ok none) := by
  obtain ⟨t, payload⟩ := f
  refine ⟨fun ht => ?_, fun ht => ?_⟩
  · unfold poolHandle
    rw [h]
    cases t <;> first | exact absurd rfl ht | rfl
  · unfold minerHandle
    rw [h]
    cases t <;> first | exact absurd rfl ht | rfl

example : deserialize Message [0, 0x80, 0x1a, 3, 0, 0, 1, 2, 3] = .ok sampleFrame ∧
    sampleFrame.message_type ≠ .setupConnection ∧ sampleFrame.message_type ≠ .setupConnectionSuccess := by decide

/-- The miner prints flags only from a frame with a valid success message, and panics on one that is not valid. -/
theorem C59_miner (buffer payload : Bytes)
    (h : deserialize Message buffer = .ok ⟨.setupConnectionSuccess, payload⟩) :
    minerHandle buffer = match deserialize (SetupConnectionSuccess miningSuccessFlags) payload with
      | .ok m => .ok (some m.flags)
      | _ => .panic := by
  unfold minerHandle
  rw [h]
  show (unwrap (unframe (SetupConnectionSuccess miningSuccessFlags) ⟨.setupConnectionSuccess, payload⟩) >>= fun s =>
    pure (some s.flags)) = _
  rw [(C22_unframe (α := SetupConnectionSuccess miningSuccessFlags) ⟨.setupConnectionSuccess, payload⟩).2 rfl]
  cases deserialize (SetupConnectionSuccess miningSuccessFlags) payload <;> rfl

example : minerHandle [0, 0, 1, 6, 0, 0, 2, 0, 3, 0, 0, 0] = .ok (some ⟨3, by decide⟩) ∧
    minerHandle [0, 0, 1, 6, 0, 0, 2, 0, 4, 0, 0, 0] = .panic := by decide

end SV2
