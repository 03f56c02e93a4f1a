{"id": "C01", "title": "Primitive integers, bools and floats round-trip little-endian", "statement": "For every bool, u8, u16, u32 and f32, serialize returns Ok with exactly 1, 1, 2, 4 and 4 bytes whose little-endian value is the value (the bit pattern for f32), and deserializing those bytes, followed by any other bytes, returns the same value.", "quantifier": "all values of the five types; all byte strings that may follow", "why_tests_cant": "The value space is 2^32 per type times all suffixes; tests check a handful of values.", "anchors": ["stratumv2/src/types/primitives.rs: impl Serializable/Deserializable for bool,u8,u16,u32,f32"]}
{"id": "C02", "title": "U24 accepts exactly 0..=2^24-1 and round-trips; an out-of-range public field is truncated on the wire", "statement": "U24::new(v) is Ok iff v <= 2^24-1, serializes to 3 little-endian bytes and deserializes to itself; every three bytes deserialize to Ok. Because the field is public, U24(v) with v >= 2^24 serializes without an error to the bytes of v mod 2^24 and so does not round-trip.", "quantifier": "all u32 values, all 3-byte strings", "why_tests_cant": "2^32 constructor inputs and the boundary behaviour of every one of them.", "anchors": ["stratumv2/src/types/fixed.rs: U24"]}
{"id": "C03", "title": "U256 is 32 opaque bytes in wire order", "statement": "Serializing a U256 yields its 32 bytes unchanged; deserializing any 32 bytes followed by anything yields exactly those bytes, and fewer than 32 bytes is a ParseError.", "quantifier": "all 32-byte arrays, all inputs", "why_tests_cant": "2^256 values.", "anchors": ["stratumv2/src/types/fixed.rs: U256"]}
{"id": "C04", "title": "STR0_32 / STR0_255: bounds, UTF-8 and round-trip", "statement": "STR0::new(s) is Ok iff s has at most MAX bytes (RequirementError otherwise) and keeps s; a constructed value round-trips through the wire; deserialization of any bytes succeeds iff the length byte n <= MAX, n more bytes are available and they are valid UTF-8, and the failure kind is ParseError, FromUtf8Error, RequirementError in that order of precedence.", "quantifier": "all strings, all byte inputs", "why_tests_cant": "Infinitely many strings and byte inputs, with multi-byte code points straddling the bound.", "anchors": ["stratumv2/src/types/strings.rs: impl_sized_STR0, STR0_32, STR0_255"]}
{"id": "C05", "title": "B0_31/32/255/64K/16M: bounds and round-trip", "statement": "For each B0 type new(bytes) is Ok iff len <= MAX (RequirementError otherwise, never a panic of the internal length conversion), constructed values round-trip with the length header in 1, 1, 1, 2 and 3 bytes, and deserialization succeeds exactly when the announced length is available and <= MAX.", "quantifier": "all byte strings of any length, the five types", "why_tests_cant": "Lengths up to 16 MiB and all contents.", "anchors": ["stratumv2/src/types/bytes.rs: impl_sized_B0, B0_31, B0_32, B0_255, B0_64K, B0_16M"]}
{"id": "C06", "title": "Flags are accepted from the wire iff no unknown bit is set, and round-trip", "statement": "For the four flag sets (mining/job-negotiation setup, mining/job-negotiation success) a u32 deserializes to Ok iff it is a union of declared flags, otherwise UnknownFlags; accepted flags keep their bits and every flag set round-trips.", "quantifier": "all 2^32 flag words, all flag sets", "why_tests_cant": "2^32 words per flag set.", "anchors": ["stratumv2/src/types/flags.rs: impl_bitflags_serde", "stratumv2/src/mining/setup_connection.rs: SetupConnectionFlags", "stratumv2/src/mining/setup_connection_success.rs: SetupConnectionSuccessFlags", "stratumv2/src/job_negotiation/setup_connection.rs: SetupConnectionFlags", "stratumv2/src/job_negotiation/setup_connection_success.rs: SetupConnectionSuccessFlags"]}
{"id": "C07", "title": "Error codes: distinct strings, exact recognition", "statement": "Each error code converts to its string and back to itself, distinct codes have distinct strings of at most 32 bytes, every other string is rejected with UnknownErrorCode, and the wire form of a code is the STR0_255 of its string.", "quantifier": "all error codes, all strings, all byte inputs", "why_tests_cant": "The rejection claim ranges over all strings.", "anchors": ["stratumv2/src/types/error_code.rs: impl_error_code_enum", "stratumv2/src/common/setup_connection_error_code.rs: SetupConnectionErrorCode", "stratumv2/src/mining/open_mining_channel_error.rs: OpenMiningChannelErrorCode"]}
{"id": "C08", "title": "Message type table is a bijection with a fixed channel bit", "statement": "MessageType::new(ext_type(t), msg_type(t)) = Ok(t) for each t, no other (extension, message) pair is accepted (UnknownMessageType), extension types are below 0x8000 so the channel bit never collides, and the channel bit is set exactly for ids 0x03, 0x16..=0x21 and 0xff.", "quantifier": "all 2^24 pairs (extension, message) and all message types", "why_tests_cant": "2^24 pairs; the collision claim is about all of them.", "anchors": ["stratumv2/src/types/message_type.rs: MessageType, impl_enum_message_types"]}
{"id": "C09", "title": "The byte parser never reads outside its input and advances by exactly what it returns", "statement": "next_by(n) returns the n bytes at the cursor and moves the cursor by n when they exist; otherwise it returns ParseError and leaves the cursor unchanged; it never panics unless start + n exceeds usize::MAX, and in a build without overflow checks it returns ParseError in that case instead of wrapped data (n > 0).", "quantifier": "all inputs, cursors and steps", "why_tests_cant": "Unbounded inputs and cursor positions, including near usize::MAX.", "anchors": ["stratumv2/src/codec/parser.rs: ByteParser::next_by"]}
{"id": "C10", "title": "No deserializer panics, whatever the bytes", "statement": "For every type with a Deserializable implementation (primitives, U24, U256, STR0, B0, flags, error codes, Protocol, every message, the SetupConnection enum, Message), deserialize(bytes) returns Ok or Err and never panics.", "quantifier": "all byte strings shorter than 2^63, every deserializable type", "why_tests_cant": "All byte strings; fuzzing samples.", "anchors": ["stratumv2/src/codec/deserialize.rs: deserialize", "stratumv2/src/macro_message/message.rs: impl_message", "stratumv2/src/codec/frame.rs: Message::deserialize", "fuzz/src/bin"]}
{"id": "C11", "title": "Every message the constructors can build round-trips", "statement": "For every message type, if the constructor returns Ok(m) then serialize(m) is Ok(bytes), deserialize(bytes ++ rest) is Ok(m) for every rest.", "quantifier": "all constructor arguments of all message types, all trailing bytes", "why_tests_cant": "Strings and byte fields are unbounded combinations.", "anchors": ["stratumv2/src/macro_message/message.rs: impl_message", "stratumv2/src/mining", "stratumv2/src/job_negotiation", "stratumv2/src/common"]}
{"id": "C12", "title": "Accepted bytes are canonical", "statement": "For every message type other than those containing a bool, if deserialize(bytes) is Ok(m) then serialize(m) is Ok(b) and b is a prefix of bytes: no two different encodings decode to the same message, and re-serializing what was received reproduces it.", "quantifier": "all byte strings, all message types", "why_tests_cant": "All byte strings.", "anchors": ["stratumv2/src/macro_message/message.rs: impl_message", "stratumv2/src/codec/deserialize.rs: deserialize"]}
{"id": "C13", "title": "Truncated messages are rejected with ParseError", "statement": "For every message type and message m built by its constructor, every strict prefix of serialize(m) deserializes to a ParseError.", "quantifier": "all messages, all cut points", "why_tests_cant": "All cut points of all messages.", "anchors": ["stratumv2/src/codec/parser.rs: ByteParser::next_by", "stratumv2/src/macro_message/message.rs: impl_message"]}
{"id": "C14", "title": "serialize returns the number of bytes written and only appends (growable writer)", "statement": "For every constructor-built message and any existing contents of a Vec writer, Serializable::serialize returns Ok(n), appends exactly n bytes and leaves the earlier contents unchanged.", "quantifier": "all messages, all buffers", "why_tests_cant": "All messages and buffer contents.", "anchors": ["stratumv2/src/codec/serialize.rs: Serializable", "stratumv2/src/macro_message/message.rs: impl_message"]}
{"id": "C15", "title": "Short writes are not detected", "statement": "With a writer that may accept fewer bytes than offered (such as a fixed-size slice, as io::Write permits), a message serialize is expected either to write the whole message or to report an error. It does not: for every message the call into a too-small slice returns Ok with the full count although only the leading bytes that fit were written. For a writer with enough room the whole encoding is written.", "quantifier": "all messages, all slice sizes", "why_tests_cant": "The violating writers and the cut positions are unbounded; unit tests only use Vec writers.", "anchors": ["stratumv2/src/codec/serialize.rs: Serializable", "stratumv2/src/types/primitives.rs", "stratumv2/src/types/strings.rs", "stratumv2/src/types/bytes.rs"]}
{"id": "C16", "title": "Frame header layout", "statement": "Serializing a frame whose payload is shorter than 2^24 bytes yields: extension type (with bit 15 equal to the channel bit of the message type) as 2 little-endian bytes, message type byte, payload length as 3 little-endian bytes, payload.", "quantifier": "all message types, all payloads", "why_tests_cant": "All payloads up to 16 MiB.", "anchors": ["stratumv2/src/codec/frame.rs: impl Serializable for Message"]}
{"id": "C17", "title": "Over-long payloads: rejected without output below 2^32, silently corrupted from 2^32 on", "statement": "A frame with payload length in [2^24, 2^32) is refused with RequirementError and writes nothing. Because the length is first cast to u32, a payload of length 2^32 + k with k < 2^24 is accepted and written with header length k, so the peer does not recover the message.", "quantifier": "all payload lengths", "why_tests_cant": "Lengths at and beyond 4 GiB cannot be unit tested.", "anchors": ["stratumv2/src/codec/frame.rs: impl Serializable for Message"]}
{"id": "C18", "title": "Frames round-trip", "statement": "For every message type and payload shorter than 2^24, deserialize(serialize(frame) ++ rest) returns the same frame and consumes exactly the frame's bytes.", "quantifier": "all message types, payloads and trailing bytes", "why_tests_cant": "All payloads.", "anchors": ["stratumv2/src/codec/frame.rs: Message"]}
{"id": "C19", "title": "Complete decision table of frame parsing", "statement": "For every byte string, parsing a frame returns: ParseError if the header is short; UnknownMessageType if (ext & 0x7fff, type) is not in the table; UnexpectedChannelBit(b) if bit 15 is b and differs from the type's channel bit; ParseError if the announced payload is not fully present; otherwise the frame with exactly the announced payload. The checks apply in this order.", "quantifier": "all byte strings", "why_tests_cant": "All byte strings.", "anchors": ["stratumv2/src/codec/frame.rs: impl Deserializable for Message"]}
{"id": "C20", "title": "A stream of frames is uniquely decodable", "statement": "For any list of frames with payloads below 2^24, parsing their concatenated serializations frame after frame with one parser yields exactly that list in order and ends at the end of the input; hence two different lists never have the same bytes.", "quantifier": "all finite lists of frames", "why_tests_cant": "Unbounded lists; needs induction.", "anchors": ["stratumv2/src/codec/frame.rs: Message", "stratumv2/src/codec/parser.rs: ByteParser"]}
{"id": "C21", "title": "frame / wire / unframe is the identity for every message", "statement": "For every constructor-built message m of every Frameable type, frame(m) is Ok(f), f has m's message type, serializing f succeeds, and deserializing those bytes and unframing gives m.", "quantifier": "all messages", "why_tests_cant": "All messages.", "anchors": ["stratumv2/src/codec/frame.rs: frame, unframe, Frameable"]}
{"id": "C22", "title": "unframe refuses any other message type before looking at the payload", "statement": "If a frame's message type differs from the expected one, unframe returns UnexpectedMessageType carrying the expected extension and message ids, whatever the payload; if it equals, the result is that of deserializing the payload.", "quantifier": "all frames, all frameable types", "why_tests_cant": "All payloads.", "anchors": ["stratumv2/src/codec/frame.rs: unframe"]}
{"id": "C23", "title": "SetupConnection constructor accepts exactly the valid connections", "statement": "SetupConnection::new succeeds iff vendor and firmware are non-empty, both versions are >= 2 and all five strings have at most 255 bytes; the first violated rule in the order vendor, firmware, min_version, max_version, string sizes decides the error kind.", "quantifier": "all argument combinations, all flag sets", "why_tests_cant": "All argument combinations.", "anchors": ["stratumv2/src/macro_message/setup_connection.rs: impl_setup_connection", "stratumv2/src/common/setup_connection.rs: SetupConnection::new_mining, new_job_negotation"]}
{"id": "C24", "title": "SetupConnection rules also hold for every message accepted from the wire", "statement": "Whatever the bytes, an accepted SetupConnection has versions >= 2, non-empty vendor and firmware, strings of at most 255 bytes and only declared flags. min_version <= max_version is not among the guarantees: a message with min_version > max_version is accepted.", "quantifier": "all byte strings", "why_tests_cant": "All byte strings.", "anchors": ["stratumv2/src/macro_message/setup_connection.rs: impl_setup_connection", "stratumv2/src/macro_message/message.rs: impl_message"]}
{"id": "C25", "title": "The SetupConnection enum dispatches on the protocol byte", "statement": "Deserializing the SetupConnection enum yields the mining variant only for protocol byte 0 and the job negotiation variant only for byte 1; bytes 2 and 3 give Unimplemented and bytes above 3 DeserializationError whatever follows; both variants round-trip, and encodings of the two variants are never equal.", "quantifier": "all byte strings, all connections", "why_tests_cant": "All byte strings.", "anchors": ["stratumv2/src/common/setup_connection.rs: SetupConnection, Protocol"]}
{"id": "C26", "title": "SetupConnectionError never claims unsupported flags without listing flags", "statement": "Neither the constructor nor the wire decoder ever yields a SetupConnectionError with code UnsupportedFeatureFlags and empty flags (RequirementError); every other combination is accepted.", "quantifier": "all flags, codes and byte strings", "why_tests_cant": "All byte strings and flag words.", "anchors": ["stratumv2/src/macro_message/setup_connection_error.rs: impl_setup_connection_error"]}
{"id": "C27", "title": "Every constructible message fits in a frame", "statement": "For every message type there is a bound far below 2^24 on the encoded size of constructor-built messages (for example 1291 bytes for SetupConnection), so framing and serializing the frame never fails on size.", "quantifier": "all messages", "why_tests_cant": "Extremal sizes over all messages.", "anchors": ["stratumv2/src/codec/frame.rs: frame", "stratumv2/src/mining", "stratumv2/src/common", "stratumv2/src/job_negotiation"]}
{"id": "C28", "title": "NaN hash rates survive the wire but not equality", "statement": "The bit pattern of nominal_hash_rate is preserved for every value including NaN and -0.0; the decoded message compares equal with == to the original iff the hash rate is not NaN. In general == on two messages holds iff the hash rates are equal as IEEE 754 numbers (so 0.0 equals -0.0, and NaN nothing) and all other fields agree.", "quantifier": "all f32 bit patterns", "why_tests_cant": "2^32 bit patterns, and == is not identity on floats.", "anchors": ["stratumv2/src/mining/open_standard_mining_channel.rs", "stratumv2/src/mining/open_extended_mining_channel.rs", "stratumv2/src/mining/update_channel.rs", "stratumv2/src/types/primitives.rs"]}
{"id": "C29", "title": "Message-type confusion between the SetupConnection struct and enum", "statement": "A frame made from the sub-protocol struct SetupConnection carries the same message type as the enum but lacks the protocol byte: unframing it as the enum never yields the connection that was framed (it reads the low byte of min_version as the protocol).", "quantifier": "all mining / job negotiation connections", "why_tests_cant": "All connections.", "anchors": ["stratumv2/src/common/setup_connection.rs: Frameable for SetupConnection", "stratumv2/src/macro_message/setup_connection.rs: impl_setup_connection"]}
{"id": "C30", "title": "Certificate validity window is checked at construction", "statement": "SignedCertificate::new is Ok iff valid_from < not_valid_after.", "quantifier": "all u16 x u32 x u32 x keys", "why_tests_cant": "All pairs of times.", "anchors": ["stratumv2/src/noise/signed_certificate.rs: SignedCertificate::new"]}
{"id": "C31", "title": "SignatureNoiseMessage is a 74-byte codec", "statement": "Every SignatureNoiseMessage serializes to exactly 74 bytes and round-trips; shorter inputs are ParseError; the first 74 bytes of any longer input decode to a message that re-serializes to them if bytes 10..74 are a signature value for the ed25519 library, and otherwise deserializing panics (a library that takes any 64 bytes never panics and decodes every 74 bytes).", "quantifier": "all messages, all byte strings", "why_tests_cant": "All 2^592 messages.", "anchors": ["stratumv2/src/noise/signature_noise_message.rs: SignatureNoiseMessage", "stratumv2/src/noise/types.rs: Signature"]}
{"id": "C32", "title": "An honestly issued certificate is accepted exactly while unexpired", "statement": "If the authority signs a certificate for a static key and the client checks it with the authority's public key and that static key, verify is Ok iff the current time (as u32) is before not_valid_after; the bytes signed and the bytes verified agree.", "quantifier": "all authority keys, certificates and clock readings", "why_tests_cant": "All certificates and all times; the sign and verify serializers are two separate pieces of code.", "anchors": ["stratumv2/src/noise/certificate_format.rs: CertificateFormat::verify", "stratumv2/src/noise/signed_certificate.rs: authority_sign_cert", "stratumv2/src/noise/signature_noise_message.rs: from_auth_key"]}
{"id": "C33", "title": "Tampering with an accepted certificate requires a signature forgery", "statement": "If verify accepts a certificate message for a static key, then either the authority signed exactly that (version, valid_from, not_valid_after, static key), or the signature is a forgery (valid for bytes the authority never signed). No two different field combinations have the same signed bytes.", "quantifier": "all certificate messages, static keys and sets of issued certificates", "why_tests_cant": "Adversarial inputs; needs injectivity of the signed encoding.", "anchors": ["stratumv2/src/noise/certificate_format.rs: CertificateFormat", "stratumv2/src/noise/signed_certificate.rs: SignedCertificate"]}
{"id": "C34", "title": "Which part of the validity period verification enforces", "statement": "While the clock is below 2^32 seconds, verify accepts only certificates with now < not_valid_after. The lower bound is not enforced: every authority can issue a certificate that is accepted although its valid_from is in the future. Because time is truncated to u32, every authority can issue a certificate that is accepted more than 4*10^9 seconds after it expired.", "quantifier": "all certificates and clocks", "why_tests_cant": "All clock values including after 2106.", "anchors": ["stratumv2/src/noise/certificate_format.rs: CertificateFormat::verify", "stratumv2/src/types/unix_timestamp.rs: unix_u32_now"]}
{"id": "C35", "title": "Unix time conversion", "statement": "system_unix_time_to_u32 is SystemTimeError exactly for times before 1970, otherwise whole seconds modulo 2^32; it is exact and monotone below 2^32 seconds and not monotone across 2^32.", "quantifier": "all system times", "why_tests_cant": "All times.", "anchors": ["stratumv2/src/types/unix_timestamp.rs: system_unix_time_to_u32"]}
{"id": "C36", "title": "Noise session phases", "statement": "A session is in transport mode iff it has processed at least two messages; the message count increases by one on each successful send or receive and is unchanged by every failure; transport mode is never left; the handshake hash and remote static key are available exactly in transport mode.", "quantifier": "all sequences of API calls with arbitrary buffers", "why_tests_cant": "Unbounded call histories.", "anchors": ["stratumv2/nx-noise/src/noisesession.rs: NoiseSession"]}
{"id": "C37", "title": "Noise message length limits", "statement": "send_message and recv_message refuse buffers shorter than 16 or longer than 65535 bytes with UnsupportedMessageLengthError, leaving session and buffer unchanged; in transport mode every other length is processed without a panic (as long as the session has processed fewer than 2^128 - 1 messages), and the buffer keeps its length.", "quantifier": "all sessions and buffers", "why_tests_cant": "All buffers.", "anchors": ["stratumv2/nx-noise/src/noisesession.rs: send_message, recv_message", "stratumv2/nx-noise/src/state.rs: write_message_regular, read_message_regular"]}
{"id": "C38", "title": "Honest NX handshake completes and both sides agree", "statement": "For every ephemeral and static key pair, prologue and payload buffers of admissible sizes, initiator.send, responder.recv, responder.send, initiator.recv all succeed, both sides are in transport mode with the same handshake hash and the same pair of transport keys and zero nonces, and the initiator's remote static key is the responder's static public key.", "quantifier": "all keys, prologues and handshake payloads (given that the derived keys are not all-zero)", "why_tests_cant": "All keys and payloads; agreement is an equation between two code paths.", "anchors": ["stratumv2/nx-noise/src/state.rs: HandshakeState", "stratumv2/nx-noise/src/noisesession.rs: NoiseSession"]}
{"id": "C39", "title": "Transport is a FIFO in each direction under any interleaving", "statement": "After a handshake, for every interleaving of sends and in-order deliveries in both directions, every delivery succeeds and yields exactly the plaintext that was sent, in order, until a nonce is exhausted.", "quantifier": "all finite schedules and plaintexts", "why_tests_cant": "Unbounded schedules.", "anchors": ["stratumv2/nx-noise/src/noisesession.rs: send_message, recv_message", "stratumv2/nx-noise/src/state.rs: CipherState"]}
{"id": "C40", "title": "Against an active network, received is a prefix of sent or a forgery happened", "statement": "For every sequence of buffers injected by the network into a transport receiver, the plaintexts it accepts are a prefix of the plaintexts the peer sent in that direction, unless some accepted buffer is a forgery: valid for the receiver's key and nonce though never produced by the sender for that nonce. Replayed, reordered, truncated and reflected messages are therefore rejected.", "quantifier": "all adversarial delivery sequences", "why_tests_cant": "Adversarial schedules.", "anchors": ["stratumv2/nx-noise/src/state.rs: CipherState::decrypt_with_ad", "stratumv2/nx-noise/src/noisesession.rs: recv_message"]}
{"id": "C41", "title": "A nonce is never used twice with the same key by one sender", "statement": "In any history of fewer than 2^128 API calls without clear or rekey, the (key, nonce) pairs used for transport encryption are pairwise distinct, the nonce counts the messages, and once 2^64-1 is reached sending fails with ExhaustedNonceError rather than wrapping.", "quantifier": "all call histories", "why_tests_cant": "2^64 messages and all histories.", "anchors": ["stratumv2/nx-noise/src/types.rs: Nonce", "stratumv2/nx-noise/src/state.rs: CipherState::encrypt_with_ad"]}
{"id": "C42", "title": "A failed receive in transport mode has no effect; a failed handshake receive does", "statement": "In transport mode, recv_message that returns an error leaves the session and the buffer unchanged, so the genuine message is still accepted afterwards. During the handshake this fails: once the initiator has refused a second message whose ephemeral key is acceptable, that key stays in its handshake hash, alone or with the encrypted static key; there are such runs in which the genuine message, accepted before, is then rejected (for all runs see C99).", "quantifier": "all sessions and buffers", "why_tests_cant": "All corrupted buffers.", "anchors": ["stratumv2/nx-noise/src/noisesession.rs: recv_message", "stratumv2/nx-noise/src/state.rs: read_message_b, decrypt_and_hash"]}
{"id": "C43", "title": "recv_message does not panic on remote input", "statement": "recv_message should return for every buffer. It does for every buffer in every state except the second handshake message of length 80..95 or above 2128 whose static-key part authenticates: there it panics, so any responder can crash an initiator. All other receive and send calls never panic, as long as the session has processed fewer than 2^128 - 1 messages.", "quantifier": "all sessions and buffers", "why_tests_cant": "All buffers; the panicking inputs must pass authentication first, so random fuzzing does not reach them.", "anchors": ["stratumv2/nx-noise/src/state.rs: SymmetricState::decrypt_and_hash, read_message_b", "stratumv2/nx-noise/src/noisesession.rs: recv_message", "fuzz/src/bin"]}
{"id": "C44", "title": "The handshake hash binds the transcript", "statement": "If two completed handshakes end with the same handshake hash then they agree on the ephemeral keys, the encrypted static key and both payloads on the wire and on the prologue, or an explicit collision of the hash function is exhibited.", "quantifier": "all pairs of handshakes", "why_tests_cant": "All transcripts.", "anchors": ["stratumv2/nx-noise/src/state.rs: SymmetricState::mix_hash", "stratumv2/nx-noise/src/noisesession.rs: get_handshake_hash"]}
{"id": "C45", "title": "Transport mode requires having heard from the peer", "statement": "A session should reach transport mode only after receiving a peer message. Roles are not enforced: a session that only sends twice reaches transport mode and reports an all-zero remote static key, with transport keys computable from the all-zero ephemeral. If the calls that succeed alternate between the directions as prescribed, transport mode implies a successful receive; a client that alternates but ignores a failed receive reaches transport mode with nobody.", "quantifier": "all call histories", "why_tests_cant": "All call histories.", "anchors": ["stratumv2/nx-noise/src/noisesession.rs: send_message"]}
{"id": "C46", "title": "Rekeying", "statement": "rekey_local_cipherstate on both peers after the same messages preserves communication from initiator to responder. rekey_remote_cipherstate is documented to rekey cs2 but rekeys cs1 and never changes cs2.", "quantifier": "all sessions", "why_tests_cant": "All session states.", "anchors": ["stratumv2/nx-noise/src/noisesession.rs: rekey_local_cipherstate, rekey_remote_cipherstate", "stratumv2/nx-noise/src/state.rs: CipherState::rekey"]}
{"id": "C47", "title": "Low-order public keys are rejected in a handshake", "statement": "PublicKey::from_bytes rejects exactly the twelve listed values; a handshake receive whose ephemeral is one of them fails with InvalidPublicKeyError, so the remote ephemeral and static keys a receiver adopts are never forbidden. Parsing from a hex string does not perform this check, and encodings of the listed values with the top bit set are accepted. The twelve values are all the 256-bit numbers that reduce to the coordinate of a point of order 1, 2, 4 or 8; since X25519 ignores the top bit, exactly seven further encodings of such points exist, and all seven are accepted.", "quantifier": "all 32-byte arrays, all handshake buffers", "why_tests_cant": "2^256 arrays.", "anchors": ["stratumv2/nx-noise/src/types.rs: PublicKey::from_bytes, from_str", "stratumv2/nx-noise/src/consts.rs: forbidden_curve_values", "stratumv2/nx-noise/src/state.rs: read_message_a, read_message_b"]}
{"id": "C48", "title": "Key hygiene after the handshake", "statement": "When a session enters transport mode its own static and ephemeral key pairs, the remote ephemeral, the handshake chaining key and handshake cipher key are all-zero.", "quantifier": "all call histories", "why_tests_cant": "All histories.", "anchors": ["stratumv2/nx-noise/src/state.rs: HandshakeState::clear, SymmetricState::clear", "stratumv2/nx-noise/src/noisesession.rs"]}
{"id": "C49", "title": "The MAC is cleared from received transport messages", "statement": "The documentation promises that after recv_message the last 16 bytes of the buffer are zero. They are not: they still hold the sender's MAC, for every transport message.", "quantifier": "all received transport messages", "why_tests_cant": "All messages.", "anchors": ["stratumv2/nx-noise/src/noisesession.rs: recv_message docs", "stratumv2/nx-noise/src/state.rs: read_message_regular"]}
{"id": "C50", "title": "Nonce encoding is injective", "statement": "Distinct 64-bit counters give distinct 96-bit AEAD nonces: four zero bytes followed by the little-endian counter, and never the nonce reserved for rekeying.", "quantifier": "all u64 values", "why_tests_cant": "2^64 values.", "anchors": ["stratumv2/nx-noise/src/utils.rs: prep_nonce"]}
{"id": "C51", "title": "Key parsing from hex", "statement": "Key, Psk, PrivateKey and PublicKey from_str accept exactly the strings of 64 hexadecimal digits (either case) and decode them big-nibble first; all others give InvalidInputError. Every key has such a string, so PublicKey::from_str accepts all the low-order values that from_bytes rejects.", "quantifier": "all strings", "why_tests_cant": "All strings.", "anchors": ["stratumv2/nx-noise/src/types.rs: decode_str_32"]}
{"id": "C52", "title": "Pending messages are handed out exactly once, in order", "statement": "For any interleaving of producers appending to a peer's pending buffer under its lock and consumers calling get_pending_msgs, the concatenation of everything handed out plus what is still pending is the sequence of appended messages: none lost, duplicated or reordered, where the order is that in which the producers released the lock. There is no deadlock, and under every scheduler that gives each thread its turn again and again all calls finish. After a producer panics while holding the lock every later get_pending_msgs panics.", "quantifier": "all interleavings of any number of threads, all fair schedulers", "why_tests_cant": "All schedules.", "anchors": ["stratumv2/src/network/peer.rs: Peer::get_pending_msgs"]}
{"id": "C53", "title": "Channel ids", "statement": "new_channel_id returns every u32 except u32::MAX for some random draw and never u32::MAX; uniqueness among previously issued ids is not guaranteed. With gen_range of rand 0.7 every other id comes from exactly one 32-bit word of the generator (0 gives 0, w > 1 gives w - 1, and 1 is thrown away), so the ids are as evenly distributed as the words; in general gen_range gives each value of its range for the same number of words and nothing else. Among 2^32 ids two are equal.", "quantifier": "all random draws", "why_tests_cant": "All draws.", "anchors": ["stratumv2/src/network/channel.rs: new_channel_id"]}
{"id": "C54", "title": "ConnectionEncryptor handshake and stubs", "statement": "An outbound and an inbound encryptor exchanging init_handshake and recv_handshake outputs both report a complete handshake and the outbound learns the inbound's static key, while the inbound reports the all-zero key as the remote one. The outbound's recv_handshake also emits a transport message: unless it is delivered, every later message from outbound to inbound is rejected. encrypt_message and decrypt_message return an empty vector for every input, so no plaintext survives.", "quantifier": "all keys and randomness, all messages", "why_tests_cant": "All keys; the extra message is only visible across two sessions.", "anchors": ["stratumv2/src/network/encryptor.rs: ConnectionEncryptor"]}
{"id": "C55", "title": "Authority key parsing in CertificateFormat::new", "statement": "CertificateFormat::new returns Base58Error exactly when the key string is not base58, ParseError when it decodes to a length other than 32, AuthorityKeyError when the 32 bytes are not a valid key, and otherwise a certificate checker for that key.", "quantifier": "all strings", "why_tests_cant": "All strings.", "anchors": ["stratumv2/src/noise/certificate_format.rs: CertificateFormat::new"]}
{"id": "C56", "title": "Rekeying and the Noise specification", "statement": "rekey replaces the key by the encryption of 32 zero bytes with a nonce of twelve 0xFF bytes and keeps the counter. The Noise specification uses the nonce 2^64-1, that is four zero bytes and eight 0xFF bytes: the keys differ, so a rekeyed session does not interoperate. With ChaCha20-Poly1305 of RFC 8439 the two keys differ for the all-zero key that a cleared session holds.", "quantifier": "all keys", "why_tests_cant": "All keys; needs a second implementation to notice.", "anchors": ["stratumv2/nx-noise/src/state.rs: CipherState::rekey"]}
{"id": "C57", "title": "Panics of the connection encryptor", "statement": "recv_handshake panics exactly for a second handshake message whose encrypted static key is accepted and whose payload part is shorter than 16 or longer than 2048 bytes. A fresh encryptor never panics, but every outbound encryptor that has called init_handshake panics on an 80-byte answer that any server can compute.", "quantifier": "all states, all inputs, all keys", "why_tests_cant": "Random bytes never authenticate, so fuzzing cannot reach it.", "anchors": ["stratumv2/src/network/encryptor.rs: recv_handshake", "stratumv2/nx-noise/src/state.rs: read_message_b"]}
{"id": "C58", "title": "The noise_handshake example: honest runs succeed, and a printed true is authenticated", "statement": "With a network that delivers, the example's pool and miner complete without panicking, the miner's session holds the pool's static key, and the single verdict printed is true exactly if the miner's clock (seconds mod 2^32) is before the end of the window written by the pool. Against any network: if the miner ever prints true, its first connection carried an NX answer from some static key rs, and a later connection number j carried a message encrypted with nonce j under the transport key that needs the secrets shared with rs, containing an unexpired certificate for rs that the authority issued or whose signature is a forgery. A connection that is closed without sending anything makes the miner panic.", "quantifier": "all keys, randomness, clocks; all sequences of connections and bytes", "why_tests_cant": "Adversarial sequences of connections and clock values; a test runs one honest pair.", "anchors": ["examples/noise_handshake.rs: Pool::handle_recv_bytes, Miner::handle_recv_bytes, Miner::listen"]}
{"id": "C59", "title": "The setup_connection example", "statement": "Every mining SetupConnection the constructor accepts, in a frame of at most 1024 bytes, is answered by exactly one SetupConnectionSuccess with the lowest version the miner offered, and the flag REQUIRES_FIXED_VERSION (value 1) alone, and the miner prints that flag; a job negotiation request gets no answer. Frames of any other type are ignored by both sides; the miner prints flags exactly from a valid success message and panics on an invalid one. The pool answers only buffers that begin with a frame of a valid mining request. Valid requests in longer frames exist and make the pool panic, as does every buffer that is not a frame, including that of a connection closed without sending.", "quantifier": "all constructor arguments; all buffer contents", "why_tests_cant": "All argument combinations and byte sequences.", "anchors": ["examples/setup_connection.rs: Pool::handle_recv_bytes, Miner::send_message, Miner::handle_recv_bytes"]}
{"id": "C60", "title": "Values written down field by field", "statement": "The fields of STR0, B0 and U24 are public. Serializing any such value never fails and writes the length field (for B0_16M its low 24 bits) and then the data, whether or not they agree; the value reads back as itself exactly when the length field is the size of the data and the size is within the type's maximum. For every request id, hash rate and target, and all texts a (at most 255 bytes) and b (at least 36 bytes), an OpenStandardMiningChannel whose identity is written down as the text a+b with the length of a is received as a different, valid message: identity a, and hash rate and target taken from b.", "quantifier": "all values of the types, all texts", "why_tests_cant": "Tests only construct values through new.", "anchors": ["stratumv2/src/types/strings.rs: impl_sized_STR0!", "stratumv2/src/types/bytes.rs: impl_sized_B0!", "stratumv2/src/types/fixed.rs: U24", "stratumv2/src/mining/open_standard_mining_channel.rs"]}
{"id": "C61", "title": "Comparisons and conversions with plain values", "statement": "A value made by a constructor of STR0, B0 or U24 converts back to what it was made from, compares equal to exactly that value in both directions, and two constructed values are equal exactly when they were made from equal values; U256 and [u8; 32] are in bijection. For values written down with a wrong length field, equality is not transitive: x == s and s == y while x != y, for every text.", "quantifier": "all values and all pairs of values", "why_tests_cant": "All pairs; tests compare single examples.", "anchors": ["stratumv2/src/types/strings.rs: PartialEq, From", "stratumv2/src/types/bytes.rs: PartialEq, From", "stratumv2/src/types/fixed.rs: PartialEq, From, TryFrom"]}
{"id": "C62", "title": "Repeated calls on one connection encryptor", "statement": "Feed a fresh inbound or outbound encryptor any sequence of inputs through recv_handshake. After a call has returned Ok no later call panics. If a call panics, all earlier calls returned errors, one of them was a first message of 48 to 95 bytes with an acceptable key (or one for which a derived key is all zero), and the panicking input authenticates under a key derived from the ephemeral key that the failed call generated. Such a first message, which anyone can send, is answered with an error and ends the handshake: every later input that does not authenticate in this way, such as an honest first message, is refused and the handshake never completes. Longer acceptable first messages are answered and complete it.", "quantifier": "all sequences of inputs, all keys and randomness", "why_tests_cant": "Fuzzing one encryptor explores single sequences and cannot produce authenticated inputs.", "anchors": ["stratumv2/src/network/encryptor.rs: recv_handshake", "fuzz/src/bin/connection_encryptor.rs", "stratumv2/nx-noise/src/state.rs: write_message_b"]}
{"id": "C63", "title": "Error source chains", "statement": "Following std::error::Error::source from any NoiseError, or from any library error that wraps one, never ends: NoiseError::source returns the error itself. Every error a connection encryptor returns is of that kind. All other library errors have chains that end, provided the chains of the wrapped foreign errors end.", "quantifier": "all errors, all numbers of steps; all states and inputs of a connection encryptor", "why_tests_cant": "A reporter that walks the chain hangs; no test walks it, and no finite walk shows that it never ends.", "anchors": ["stratumv2/nx-noise/src/error.rs: impl Error for NoiseError", "stratumv2/src/error.rs: Error"]}
{"id": "C64", "title": "What the error messages tell apart", "statement": "Two NoiseErrors print the same text exactly if they are equal or both say that something is missing from a message. Two library errors that do not print a wrapped error print the same text exactly if they are equal or carry the same text (the variant is then not visible); in particular extension and message number can be read off an UnexpectedMessageType. The numbers are printed in decimal with a slash between them, the channel bit as true or false, and a text that the error carries between backquotes.", "quantifier": "all pairs of errors, all carried texts and numbers", "why_tests_cant": "All pairs of texts and numbers.", "anchors": ["stratumv2/nx-noise/src/error.rs: impl Display for NoiseError", "stratumv2/src/error.rs: Error"]}
{"id": "C65", "title": "Empty keys and key pairs", "statement": "is_empty holds exactly for 32 zero bytes. Keypair::from_key fails, with InvalidKeyError, exactly for the empty private key; otherwise the pair holds the key and its public key. Key::generate_public_key does not check and returns a public key for the empty key too. clear makes a pair empty in both halves and no pair can be made from its private key; Keypair::is_empty looks at the private half only.", "quantifier": "all keys", "why_tests_cant": "All 2^256 keys.", "anchors": ["stratumv2/nx-noise/src/types.rs: Key, PrivateKey, PublicKey, Keypair"]}
{"id": "C66", "title": "What the message constructors accept", "statement": "OpenStandardMiningChannel::new and OpenExtendedMiningChannel::new succeed exactly if the user identity has at most 255 bytes, and the two Success constructors exactly if the extranonce prefix has at most 32; otherwise they return a RequirementError. SetupConnectionSuccess::new, ChannelEndpointChanged::new, the two OpenMiningChannelError constructors and UpdateChannel::new never fail. In each case the built message has the arguments as its fields. SetupConnection::new_mining and new_job_negotiation succeed or fail exactly as the struct's constructor does, with its value in the variant of the protocol or its error. (The struct's own constructor and SetupConnectionError::new: C23, C26.)", "quantifier": "all arguments of every constructor", "why_tests_cant": "Unbounded strings and byte vectors at the length limits, and every field of every message.", "anchors": ["stratumv2/src/mining/", "stratumv2/src/common/setup_connection.rs", "stratumv2/src/common/channel_endpoint_changed.rs", "stratumv2/src/macro_message/"]}
{"id": "C67", "title": "Named feature flags on the wire", "statement": "Whichever named flags are chosen for a mining connection request (REQUIRES_STANDARD_JOBS, REQUIRES_WORK_SELECTION, REQUIRES_VERSION_ROLLING), its answer (REQUIRES_FIXED_VERSION, REQUIRES_EXTENDED_CHANNELS) or a job negotiation request (REQUIRES_ASYNC_JOB_MINING), they are written as bits 0, 1, 2 of a little-endian u32; reading it back, with anything behind it, gives a value containing exactly the chosen ones; it is empty iff none was chosen. contains with several flags means all of them. Every value of a flag type is such a choice.", "quantifier": "all choices of flags, all trailing input", "why_tests_cant": "Exact bit positions for each named flag in every combination with arbitrary trailing input.", "anchors": ["stratumv2/src/mining/setup_connection.rs", "stratumv2/src/mining/setup_connection_success.rs", "stratumv2/src/job_negotiation/setup_connection.rs", "stratumv2/src/types/flags.rs"]}
{"id": "C68", "title": "The handshake with the primitives of the RFCs", "statement": "X25519 (RFC 7748), ChaCha20-Poly1305 (RFC 8439) and BLAKE2s (RFC 7693), as specified, satisfy what the other properties assume: both sides of a key exchange compute the same secret, no public key derived from any secret is one of the refused values, decryption undoes encryption, and for a given key, nonce and associated data only what encryption outputs decrypts. So the honest handshake completes with equal keys and hash for all keys, prologues and payloads (unless one of two derived keys is 32 zero bytes), a network cannot make a side accept anything but a prefix of what was sent without forging, and an initiator accepts exactly the messages of the specification.", "quantifier": "all secret keys, messages, nonces, associated data, network behaviours", "why_tests_cant": "Commutativity of the ladder for 2^512 pairs of secrets is a theorem about the group of an elliptic curve; tests try a few pairs.", "anchors": ["stratumv2/nx-noise/src/prims.rs", "stratumv2/nx-noise/src/types.rs: Keypair::dh", "stratumv2/nx-noise/src/state.rs", "stratumv2/nx-noise/src/noisesession.rs"]}
{"id": "C69", "title": "Keys that cancel the secret of the other side", "statement": "For every secret key, X25519 with a public key read as a point of low order gives 32 zero bytes, and seven such keys are accepted. From the prologue and an initiator's first message alone, without any secret, anyone can compute a second message with any payload that every initiator accepts; it then reports one of these keys as the responder's static key, and has two transport keys that are the same constants in every such session. After a first message with such a key a responder likewise derives those constants whatever its secret keys, so anyone who saw the messages can read its static key and everything it sends. The code does not check the shared secret for zero.", "quantifier": "all secret keys, prologues, first messages, payloads", "why_tests_cant": "All 2^256 secrets for the key exchange; tests use random keys, which are never of low order.", "anchors": ["stratumv2/nx-noise/src/types.rs: PublicKey::from_bytes, Keypair::dh", "stratumv2/nx-noise/src/consts.rs: forbidden_curve_values", "stratumv2/nx-noise/src/state.rs: write_message_b, read_message_a, read_message_b"]}
{"id": "C70", "title": "Key derivation on slices and the functions nothing calls", "statement": "hmac on slices is HMAC-BLAKE2s for keys of at most 64 bytes and panics exactly for longer keys or an output slice not of 32 bytes; hkdf with a 32-byte chaining key writes the first one, two or three outputs of the Noise HKDF (three for any number other than 1 and 2) and leaves the other slices as they were. mix_key_and_hash is MixKeyAndHash, initialize_symmetric is InitializeSymmetric for protocol names of every length; neither panics. set_nonce sets exactly the nonce that get_nonce returns and that the next encryption uses, and at the largest value that encryption is refused.", "quantifier": "all slices, all numbers of outputs, all states, all protocol names, all nonces", "why_tests_cant": "Unbounded keys, data and names; three of these functions have no caller.", "anchors": ["stratumv2/nx-noise/src/prims.rs: hmac, hkdf", "stratumv2/nx-noise/src/state.rs: mix_key_and_hash, initialize_symmetric, set_nonce, get_nonce, get_handshake_hash"]}
{"id": "C71", "title": "Certificates with Ed25519 and base58 as specified", "statement": "Ed25519 (RFC 8032) and base58, as specified, satisfy what the properties of certificates assume: for every key and message the signature verifies and the public key is accepted, and every byte string has exactly one base58 text. So a certificate issued by any authority, sent, decoded and checked with the base58 text of its public key is accepted exactly while the clock (seconds modulo 2^32) is before not_valid_after, and examples/noise_handshake.rs ends with that verdict for all keys (unless a derived key is zero). Given the first half of a signature at most one second half is accepted for a message.", "quantifier": "all authority keys, certificates, clocks, session keys", "why_tests_cant": "That every honest signature verifies is a theorem about the group of a curve, for 2^256 keys and all messages.", "anchors": ["stratumv2/src/noise/types.rs", "stratumv2/src/noise/certificate_format.rs", "stratumv2/src/noise/signature_noise_message.rs", "examples/noise_handshake.rs"]}
{"id": "C72", "title": "A degenerate authority key is accepted", "statement": "CertificateFormat::new accepts the base58 text 4uQeVj5tqViQh7yWWGStvkEG1Zmhx6uasJtWCJziofM, the neutral point, as an authority key. With it, every message with one constant signature is accepted for every static key, version and window until it expires, though nothing was ever signed: the code checks with verify, which does not refuse keys of low order.", "quantifier": "all static keys, versions, windows, clocks", "why_tests_cant": "One signature for all messages.", "anchors": ["stratumv2/src/noise/certificate_format.rs: new, verify"]}
{"id": "C73", "title": "impl_message! for any declaration", "statement": "The ten messages of the library are expansions of impl_message! with their declared fields: same bytes, count or error to every writer, same decoder, same message type. For every declaration (any list of fields of the library's types) whose constructor, when it accepts, stores its arguments: a valid message is written as the formats of its fields one after the other and read back unchanged whatever follows; every strict prefix is refused with a ParseError; the decoder never panics and what it accepts is valid; serialize returns the length of the message, also if the writer took less; framing and unframing are inverse and a frame of another type is refused. Accepted bytes start with the serialization of the result if no field is a bool; a message with a bool is not canonical.", "quantifier": "all declarations, all messages, all inputs, all writers", "why_tests_cant": "Quantifies over programs: every message anyone may declare, the many types of the protocol that are still missing included.", "anchors": ["stratumv2/src/macro_message/message.rs: impl_message!"]}
{"id": "C74", "title": "The table macros and the sized-type macros for any arguments", "statement": "The two error code enums and MessageType are expansions of impl_error_code_enum! and impl_enum_message_types!. For any error code table with one row per variant, every code comes back from its bytes exactly if the strings are distinct and none is longer than 255 bytes; a longer string is written with its length modulo 256 and no error, and can arrive as another code. Whatever the table, the decoder never panics, accepts only strings of the table and refuses others as UnknownErrorCode. For any message type table with one row per variant, the numbers of each variant lead back to it exactly if no two variants share them. A type made by impl_sized_STR0! with any bound reads back every string it accepts exactly if the bound is at most 255. The constructor of a type made by impl_sized_B0! panics exactly on bytes within the bound whose length does not fit the length type; its decoder never panics.", "quantifier": "all tables, all bounds, all inputs", "why_tests_cant": "Quantifies over programs: every table or bound a later message may use; the compiler checks none of these conditions.", "anchors": ["stratumv2/src/types/error_code.rs: impl_error_code_enum!", "stratumv2/src/types/message_type.rs: impl_enum_message_types!", "stratumv2/src/types/strings.rs: impl_sized_STR0!", "stratumv2/src/types/bytes.rs: impl_sized_B0!"]}
{"id": "C75", "title": "Input that arrives piece by piece", "statement": "For every decoder of the library: unless it answers ParseError (the input ends too early) its answer, value or error, and the place where it stops are the same whatever bytes follow; bytes before the cursor have no influence; and it never uses or asks for more than a fixed number of bytes (1291 for SetupConnection, 6 + 2^24 - 1 for a frame). The same holds for every message that impl_message! can declare. From three bytes on, deserialize::<Message> says ParseError exactly for proper beginnings of frames that the library writes; with fewer bytes it always does, also when no continuation can be a frame, and a SetupConnection whose version is already wrong is only refused when complete. Hence a user's loop that appends what arrives, takes frames from the front and waits on ParseError ends in the same state however the bytes are cut into pieces, delivers exactly the frames that were serialized, in order, and never holds as many bytes as the longest frame.", "quantifier": "all decoders, all inputs, all ways to cut the input", "why_tests_cant": "Quantifies over all inputs and all ways to cut them; tests use complete messages only.", "anchors": ["stratumv2/src/codec/parser.rs: ByteParser", "stratumv2/src/codec/frame.rs: Message", "stratumv2/src/macro_message/message.rs: impl_message!"]}
{"id": "C76", "title": "Frames over a Noise session, end to end", "statement": "Two sessions in sync with keys that are not zero, both sides sending fewer than 2^64 frames that fit into a Noise message (payload up to 65513 bytes) in any interleaving, as the examples do: serialize, leave 16 bytes, send_message; recv_message, deserialize::<Message> from the same buffer. Over a network that keeps order every receive succeeds and the frames (and, for a list of messages, the values got by unframe) are those sent, in order. Over any network what is read from successful receives is a prefix of the frames sent, or an accepted Noise message is a forgery. The tag left at the end of the buffer is harmless for complete frames, but of a frame cut short by up to 16 bytes the missing bytes are read from the tag: a frame nobody wrote is returned without error, where the plaintext alone gives ParseError.", "quantifier": "all frames, all interleavings, all networks", "why_tests_cant": "Quantifies over histories and adversarial schedules across both layers.", "anchors": ["stratumv2/nx-noise/src/noisesession.rs: send_message, recv_message", "stratumv2/src/noise/noise_session.rs: new_noise_responder, new_noise_initiator", "stratumv2/src/codec/frame.rs: Message, frame, unframe", "examples/noise_handshake.rs"]}
{"id": "C77", "title": "The authority keys ed25519-dalek accepts", "statement": "PublicKey::from_bytes of ed25519-dalek, which CertificateFormat::new relies on, decompresses leniently: it reduces the y coordinate modulo p and accepts a sign bit with x = 0. On every encoding RFC 8032 accepts it gives the same point and verify answers the same; besides those it accepts exactly 26 further encodings. With it honest certificates are accepted exactly until they expire and the noise example completes as with the RFC; for every key the second half of a valid signature is determined by its first; and the neutral point can be given as authority key in four encodings, for each of which one constant signature is valid for every message.", "quantifier": "all keys, messages, signatures, seeds, certificates and clock values", "why_tests_cant": "There are 2^256 encodings of keys of which 26 behave differently; no test tries any of them.", "anchors": ["stratumv2/src/noise/types.rs", "stratumv2/src/noise/certificate_format.rs", "stratumv2/src/noise/signature_noise_message.rs", "examples/noise_handshake.rs"]}
{"id": "C78", "title": "What the fuzz harnesses can find", "statement": "The harnesses mining_messages, network_frame and setup_connection pass all their targets whatever the inputs, and so does connection_encryptor with one input for each of its two fresh encryptors. The harness noise panics exactly on inputs of at least 74 bytes whose signature the signature library refuses: with ed25519 from 1.3 on those whose 74th byte is at least 32, with earlier versions none.", "quantifier": "all inputs, all keys that the library can generate", "why_tests_cant": "A fuzzer samples inputs; a harness that runs for days without a finding says nothing about the inputs it did not try.", "anchors": ["fuzz/src/bin/mining_messages.rs", "fuzz/src/bin/network_frame.rs", "fuzz/src/bin/setup_connection.rs", "fuzz/src/bin/connection_encryptor.rs", "fuzz/src/bin/noise.rs"]}
{"id": "C79", "title": "set_ephemeral_keypair", "statement": "On a session that has no ephemeral key yet, set_ephemeral_keypair with a non-empty pair makes the handshake message that the session sends the one it would send had the generator drawn that pair: same result, same buffer, same session after a success; a pair whose private key is empty is ignored. A responder may set it before or after receiving the first message. With pairs set on both sides the handshake completes as in C38 whatever the generator would draw. In transport mode the call changes nothing that is sent or received. An initiator whose pair is replaced between the two messages refuses the honest answer unless a ciphertext made with one derived key decrypts with another. Two sessions with the same set pairs and responder key have the same transport keys whatever prologues and payloads, so that their messages number j are encrypted with the same key and nonce.", "quantifier": "all sessions, all pairs, all generators, all buffers, all histories", "why_tests_cant": "The tests set fixed pairs once, before the handshake, to replay vectors; they do not call it later, with an empty pair, or with a generator whose output is known.", "anchors": ["stratumv2/nx-noise/src/noisesession.rs: set_ephemeral_keypair", "stratumv2/nx-noise/src/state.rs: set_ephemeral_keypair, write_message_a, write_message_b"]}
{"id": "C80", "title": "The setup_connection program under every schedule", "statement": "The whole program, its two tasks interleaved in any way, with any valid mining request whose frame fits into the buffer. If reads get all that was written: when the miner has returned it printed exactly the flag the pool sent, and the pool has returned; the only possible panics are a miner that connects before the pool has bound its listener and a pool that answers before the miner has bound its own; when nothing moves any more the program is done or one of these has happened, in the second case with the miner waiting for ever. If both listeners are bound in time every schedule that goes on long enough ends well; nothing in the program ensures that they are, and both races happen. A read that gets only a part of a frame is not noticed: the missing bytes count as zeros, so the pool can answer a request that differs from the one sent, and the miner prints no flags for a reply cut to 4 to 8 of its 12 bytes. With a valid request for job negotiation in place of the mining request the pool never panics and makes no connection, and the miner prints nothing and never returns; in the end the pool has returned and the miner waits for ever, or the miner connected before there was a listener.", "quantifier": "all valid requests, all schedules, all ways to deliver the bytes", "why_tests_cant": "The races and the short reads depend on the scheduler and the network; on one machine the program nearly always takes the same path.", "anchors": ["examples/setup_connection.rs: main, Pool, Miner"]}
{"id": "C81", "title": "The noise_handshake program under every schedule", "statement": "The whole program, its two tasks interleaved in any way, with honest keys, any clocks with a non-empty window, and reads that get all that was written. The miner prints nothing or exactly one verdict, which is whether its clock is before the end of the certificate's window; once it has printed, its session knows the pool's static key and is in step with the session of the pool. The only possible panics are a connection to a listener that is not bound yet, on either side; when nothing moves any more the verdict is printed or one of these has happened. If both listeners are bound in time every schedule that goes on long enough prints the verdict; nothing ensures it, and after the race the miner waits for ever. Of the miner's first message any part from 32 bytes on has the same effect.", "quantifier": "all keys, all clocks, all schedules", "why_tests_cant": "The races depend on the scheduler; the example sleeps two seconds instead of waiting for the listener, and does not wait at all the other way round.", "anchors": ["examples/noise_handshake.rs: main, Pool, Miner"]}
{"id": "C82", "title": "A client with a valid certificate talks to a certified server", "statement": "Any number of servers, each with one static key and any number of connections answered through the API, and an authority that issued certificates only for their keys; the network is arbitrary. A client sends its first message, accepts an answer, and CertificateFormat::new and verify return Ok for the static key its session reports. Then one connection of one of these servers has the same prologue, received exactly the client's message, sent exactly the accepted answer, the client has the payload the server put in, both sessions have the same handshake hash and transport keys, and from then on each side accepts a prefix of what the other sends (unless a transport message is forged). The only other possibilities are a signature the authority never made, an answer whose payload decrypts under a key that takes the shared secret of the client's ephemeral and the server's static key although the server never encrypted it, or two different hash inputs with the same hash. This holds for every true the miner of examples/noise_handshake.rs prints, and with the primitives of the RFCs no assumption on the primitives is left.", "quantifier": "all servers, connections, keys, prologues, payloads, certificates, clocks, and everything the network delivers before and after", "why_tests_cant": "Tests run one honest client against one honest server; who else could have produced the accepted bytes is a question about all of them.", "anchors": ["stratumv2/nx-noise/src/noisesession.rs: send_message, recv_message", "stratumv2/nx-noise/src/state.rs: write_message_b, read_message_b", "stratumv2/src/noise/certificate_format.rs", "stratumv2/src/noise/signature_noise_message.rs", "examples/noise_handshake.rs: Miner"]}
{"id": "C83", "title": "A server configured with NoiseConfig", "statement": "A server that uses a NoiseConfig as its documentation says (the static key in its session, the stored message after the handshake) and the client of the noise example: for every stored message and every key (unless one of three derived keys is 32 zero bytes) nobody panics, and the client accepts exactly if its clock is before not_valid_after and the stored signature is one of the authority for the stored window and the public half of the configured key. So a message that the authority signed for this key is accepted exactly until it expires, whenever the server was configured, and the server keeps sending it afterwards; NoiseConfig::new also takes a message signed for another key, the server then starts and talks, but whoever it is accepted by holds a forged signature. Storing the message with serialize and loading it with deserialize gives the same configuration.", "quantifier": "all stored messages, keys, authorities and clocks", "why_tests_cant": "A configuration is used for months with keys and certificates made elsewhere; the tests never use NoiseConfig at all.", "anchors": ["stratumv2/src/network/config.rs: NoiseConfig", "stratumv2/src/noise/signature_noise_message.rs", "stratumv2/src/noise/certificate_format.rs", "examples/noise_handshake.rs: Miner"]}
{"id": "C84", "title": "What travels through connection encryptors", "statement": "recv_handshake of an inbound encryptor answers every acceptable first message with a payload that is the received message without its first 80 and last 16 bytes; an honest client gets its own bytes back (unless a derived key is 32 zero bytes), so the server can send nothing, such as a certificate, in its handshake message. Once the first message is behind, a successful recv_handshake never gives what it has read: the result and the buffer are that text sealed again with the session's own sending key and nonce. Two encryptors that hand each result to the other accept and answer for ever (for fewer than 2^64 calls), each message being the same text under the next nonce.", "quantifier": "all messages, keys and numbers of calls", "why_tests_cant": "The tests stop when the handshake is complete and do not look at what the last call returned.", "anchors": ["stratumv2/src/network/encryptor.rs: ConnectionEncryptor"]}
{"id": "C85", "title": "Channels under random ids", "statement": "Of all draws of n channel ids by new_channel_id at most the fraction n(n-1)/(2(2^32-1)) has an id twice; from n = 77164 on, and not before, more than half of the draws have. A ChannelManager in which channels are put under connection and id, one after the other, has under each pair the channel put there last: other connections and ids are not affected, and all channels of a connection are found under their ids exactly if no id was given to two different ones; an id drawn again replaces the earlier channel.", "quantifier": "all numbers of channels, all draws, all histories of opened channels", "why_tests_cant": "A collision needs tens of thousands of channels to be likely; the test draws one id.", "anchors": ["stratumv2/src/network/channel.rs: new_channel_id, ChannelManager"]}
{"id": "C86", "title": "What the keys of a session influence", "statement": "The static key pair given to a session influences nothing (no outcome, no buffer, no getter, no transport key) unless a send is called when exactly one message has been processed, so an initiator that follows the pattern is anonymous. Private keys act only through their public keys and Diffie-Hellman results: sessions whose static and ephemeral keys, drawn or set, agree in these behave the same under every history; with X25519 non-zero private keys that agree in bits 3 to 253 do. The role given to init_session plays no part until two messages have been processed.", "quantifier": "all prologues, keys, call histories and buffers", "why_tests_cant": "Two runs have to be compared for all pairs of secrets; a test sees one pair, and a leak may need one particular history.", "anchors": ["stratumv2/nx-noise/src/noisesession.rs: init_session, send_message, recv_message", "stratumv2/nx-noise/src/state.rs: HandshakeState", "stratumv2/nx-noise/src/types.rs: Keypair"]}
{"id": "C87", "title": "Parsing on other targets", "statement": "Every decoder of the library (field types, messages, frames, any impl_message! declaration) consists of next_by calls for less than 2^24 bytes each, and gives the same result and leaves the cursor at the same place whether usize has 64 bits or any smaller number down to 26, and with or without overflow checks, on every input that a slice of that target can hold.", "quantifier": "all inputs, cursors, widths and both build modes", "why_tests_cant": "Tests run on one target in one build mode.", "anchors": ["stratumv2/src/codec/parser.rs: next_by", "stratumv2/src/codec/deserialize.rs"]}
{"id": "C88", "title": "The example programs when they are not alone on the machine", "statement": "The two example programs, their tasks interleaved in any way, while strangers connect to both listeners, write to their connections in pieces, leave them open or close them, any socket call may fail, and a try_write may accept only a part of its bytes. setup_connection: what the miner prints is decided by the first connection made to it alone, what the pool answers by the first made to the pool, and a task writes nothing but its request or that answer, or a beginning of it. If the pool is first at the miner, the miner prints FIXED_VERSION, no flags, or nothing. But anybody can answer instead of the pool, with any flags; whoever is first at the pool is served and the miner prints the answer as its own; whoever connects first and stays silent stops the program; and one failing accept ends a task for good, with nothing answered or printed. A call that fails sends and reads nothing, and a failing bind, connect or try_write is a panic of its task, after which the task does nothing, and with the miner the program is over. noise_handshake: a printed true still means that the first connection to the miner brought a handshake message for a static key rs, a later one a certificate for rs that is not expired, encrypted under keys that require the secrets shared with rs, and that the authority issued it or its signature is forged. A failing accept of the miner changes nothing, one of the pool ends the pool; other failures are as above. But a silent connection stops the loop for good, and one that is closed without a word before the pool connects makes the miner panic. Without strangers and failures these are the programs of C80 and C81.", "quantifier": "all interleavings, all connections and bytes of strangers, all failing calls", "why_tests_cant": "Tests run the examples on a quiet machine, if at all; what others can do to a listener is a question about all their actions and all schedules.", "anchors": ["examples/setup_connection.rs: main, Pool, Miner", "examples/noise_handshake.rs: main, Pool, Miner"]}
{"id": "C89", "title": "Two sessions in the same role", "statement": "Two parties complete a handshake with every choice of the initiator flags of init_session: the bytes on the wire, the handshake hash, the remote keys and the payloads do not depend on the flags. If the flags differ, what follows is an ordinary session in which the party whose flag is set is the initiator, even if it received the first message. If the flags are equal, nothing reports it: in all histories without key changes message number j of the one and message number j of the other are encrypted with the same key and the same nonce, an eavesdropper gets the exclusive or of the two plaintexts from the two ciphertexts, and a message of one is accepted by the other only if the same bytes are an encryption under both transport keys.", "quantifier": "all flags, keys, prologues, payloads and buffers; all histories of the two sessions after the handshake", "why_tests_cant": "Tests use one initiator and one responder. That the handshake never looks at the flag, and what follows for all later messages, is a statement about all histories, and reuse of a nonce is not visible in any single result.", "anchors": ["stratumv2/nx-noise/src/noisesession.rs: init_session, send_message, recv_message", "stratumv2/nx-noise/src/state.rs: HandshakeState, CipherState"]}
{"id": "C90", "title": "The counters of a session, and sessions in other builds", "statement": "A session made by init_session never counts more than 2 + 2 * (2^64 - 1) messages, plus 2^64 - 1 for every call of clear_local_cipherstate or clear_remote_cipherstate; so with fewer than 2^64 - 1 such calls the u128 counter cannot overflow: send_message never panics, and recv_message panics only on the second handshake message in the case of C43. All histories of calls go the same way - outcomes, sessions, buffers - whether or not the build checks for overflow and whatever the width of usize (at least 16 bits). Were the counter at its maximum, a build with checks would panic, and one without would start again at 0 and send the next message as a first handshake message with its payload in the clear.", "quantifier": "all histories of calls on a session, all builds, keys, prologues and buffers that exist on the target", "why_tests_cant": "Nobody can send 2^64 messages in a test, and tests run one build on one target.", "anchors": ["stratumv2/nx-noise/src/noisesession.rs: send_message, recv_message, clear_local_cipherstate, clear_remote_cipherstate", "stratumv2/nx-noise/src/state.rs: CipherState, HandshakeState", "stratumv2/nx-noise/src/types.rs: Nonce"]}
{"id": "C91", "title": "Messages stay secret", "statement": "Let the key stream of ChaCha20 be replaced by pads chosen at random, one for each key and nonce. Take two sessions in different roles after the handshake, and an attacker that has either party send one of two messages of its choice (always the first, or always the second, of equal length), delivers any bytes to either party and has them change keys, choosing every move from all it has seen: the outcomes of all calls, all bytes on the wire and both sessions with their keys. As long as the two parties do not send with the same key, what the attacker sees is the same whether first or second messages are sent: every choice of the pads in the one case corresponds to exactly one in the other, so that any test of what it has seen comes out true equally often. The same holds for the payload of the second handshake message, if the two handshake keys are different. ChaCha20-Poly1305 is of the form assumed.", "quantifier": "all pairs of sessions in transport mode with different roles, all attackers, all numbers of moves, all MACs that depend on key, nonce, associated data and ciphertext", "why_tests_cant": "Secrecy is a statement about all attackers and about probabilities; a test decrypts what it has encrypted.", "anchors": ["stratumv2/nx-noise/src/noisesession.rs: send_message, recv_message, rekey_local_cipherstate, rekey_remote_cipherstate", "stratumv2/nx-noise/src/state.rs: CipherState::encrypt_with_ad, CipherState::rekey, HandshakeState::write_message_b", "stratumv2/nx-noise/src/prims.rs: encrypt, decrypt"]}
{"id": "C92", "title": "Forgeries are rare", "statement": "Let the one-time keys of Poly1305, which ChaCha20 makes from key and nonce, be chosen at random, one for each key and nonce. Take two sessions after a handshake with different keys for the two directions, and an attacker that has either party send any messages, any number of them, and delivers at most q messages of its own making to either party, choosing every step from all that has happened: everything sent, delivered and accepted, and both sessions with their keys and counters. Then in all but a share of q / 2^91 of the choices of the one-time keys, at every point what each side has accepted is, in order, the beginning of what the other side has sent. Underneath: 2^130 - 5 is prime, each tag of a message comes from 2^128 of the 2^256 one-time keys, and at most 8 L 2^22 keys give two different messages of at most 16 L bytes two given tags. An attacker that knows the one-time keys needs one delivery. ChaCha20-Poly1305 is of the form assumed.", "quantifier": "all pairs of sessions in transport mode that are in sync, all attackers, all numbers of steps, all key streams; all messages and tags of Poly1305", "why_tests_cant": "The share of keys with which an attack succeeds cannot be measured: a test would need 2^91 attempts, and there are more attackers than can be tried.", "anchors": ["stratumv2/nx-noise/src/noisesession.rs: send_message, recv_message", "stratumv2/nx-noise/src/state.rs: CipherState::encrypt_with_ad, CipherState::decrypt_with_ad", "stratumv2/nx-noise/src/prims.rs: encrypt, decrypt"]}
{"id": "C93", "title": "Rekeying while messages are under way", "statement": "Two sessions after a handshake; either side calls either of the two rekey functions at any time, between sending messages and being delivered any bytes in any order. Both functions change the key of the direction from the initiator to the responder (rekey_remote_cipherstate too, as the code is written), so: (a) the messages of the responder, and what comes of delivering anything to the initiator, are exactly as if nobody had rekeyed; (b) message j of the initiator is encrypted with the key reached by rekeying as often as it had rekeyed, and with nonce n1 + j: rekeying neither starts the counter again nor puts off its end; (c) after any history the message the responder waits for is accepted, and gives what was sent, if the responder has rekeyed as often as the initiator had when sending it; (d) so if the network keeps the order and the responder rekeys at the same places in the sequence of messages - not at the same time - everything is received; (e) whatever the network does, what the responder accepted is the beginning of what was sent, each message under the key it was sent with, or it accepted a forgery; (f) a responder that has rekeyed once too often for the message it waits for never accepts anything again, unless by a forgery or because the keys come round; (g) with random one-time keys and at most E calls on each side, an attacker who also decides about the rekeying and makes q deliveries gets a forgery accepted in at most a share of q / 2^91 of the choices of the one-time keys, if none of the keys of the one direction is the key of the other.", "quantifier": "all pairs of sessions in transport mode that are in sync, all sequences of sends, deliveries and rekey calls on either side, all contents; all attackers for (g)", "why_tests_cant": "The order in which messages in flight and calls on two machines interleave cannot be enumerated, and most wrong orders only show many messages later.", "anchors": ["stratumv2/nx-noise/src/noisesession.rs: rekey_local_cipherstate, rekey_remote_cipherstate, send_message, recv_message", "stratumv2/nx-noise/src/state.rs: CipherState::rekey, CipherState::encrypt_with_ad, CipherState::decrypt_with_ad"]}
{"id": "C94", "title": "Frames under attack, if ChaCha20 is random", "statement": "Let the block function of ChaCha20 - 64 bytes for every key, nonce and counter - be a random table. (a) Two sessions after a handshake with different keys for the two directions; an attacker has either side send any frames (also ones that do not fit into a Noise message, whose send fails), has each side call the rekey functions at most E times, and delivers at most q messages of its own making, choosing every step from the whole history with both sessions and their keys. Then for all but a share of q / 2^91 + E / 2^256 of the block functions, what each side reads with deserialize::<Message> from its successful receives is, in order, the beginning of the frames for which send_message returned Ok on the other side. (b) The attacker of C91, who has one of two messages of equal length sent: for every block function there is exactly one under which it sees the same with the other messages, so no test of what it sees comes out differently often. ChaCha20-Poly1305 of RFC 8439 is the case where the table is the block function of ChaCha20.", "quantifier": "all pairs of sessions in transport mode that are in sync, all attackers of each kind, all numbers of steps, all frames", "why_tests_cant": "Shares of 2^-91 cannot be measured, and the attackers are functions of the whole history.", "anchors": ["stratumv2/nx-noise/src/noisesession.rs: send_message, recv_message, rekey_local_cipherstate, rekey_remote_cipherstate", "stratumv2/nx-noise/src/state.rs: CipherState", "stratumv2/nx-noise/src/prims.rs: encrypt, decrypt", "stratumv2/src/codec/frame.rs: Message", "stratumv2/src/codec/serialize.rs: serialize", "stratumv2/src/codec/deserialize.rs: deserialize", "examples/noise_handshake.rs"]}
{"id": "C95", "title": "Nobody answers a client in place of the server, if ChaCha20 is random", "statement": "A client has sent its first handshake message and gets a reply from an attacker that knows every secret key, computes ChaCha20 on any keys, nonces and counters of its choice (ChaCha20 is a random table that it asks for single blocks) and has responders with any secrets and prologues - the real servers among them - answer any first messages through recv_message and send_message, learning their whole sessions. For all but a share of 1 / 2^91 of the block functions: if the client's recv_message returns Ok and get_remote_static_public_key gives rs, then one of the responders made exactly this reply for exactly this first message under the same prologue, rs is its static key, and the client got its payload, the same handshake hash and the same transport keys - or else the attacker computed a block under the payload key, which is made from the Diffie-Hellman of the client's ephemeral secret and rs, or responders used that key more than once, or the hash function has a collision among the inputs of the two sides. The condition on the payload key is needed: for every client, static key and payload there is an attacker that computes blocks under the two handshake keys only, asks no server, and is accepted whatever the table is.", "quantifier": "all prologues, keys, first messages and adaptive attackers, whatever the tag key stream outside the table", "why_tests_cant": "Shares of 2^-91 cannot be measured, and the attackers are arbitrary adaptive programs.", "anchors": ["stratumv2/nx-noise/src/noisesession.rs: init_session, send_message, recv_message, get_remote_static_public_key", "stratumv2/nx-noise/src/state.rs: CipherState, SymmetricState, HandshakeState", "stratumv2/nx-noise/src/prims.rs: encrypt, decrypt, hash, hkdf"]}
{"id": "C96", "title": "A client and its server talk through an attacker that computes ChaCha20", "statement": "Let ChaCha20 be a random table of blocks. A client has sent its first handshake message. An attacker that knows every secret key, computes blocks of ChaCha20 under any keys of its choice and has responders with any secrets - the real servers among them - run handshakes through the API replies to the client; if the client's recv_message returns Ok, the attacker goes on as the network between the client and the responder whose answer it was: it has either side send any frames, has each side call the rekey functions at most E times, and delivers at most q messages of its own making, still computing blocks and still having responders run handshakes before each step. For all but a share of (q + 1) / 2^91 of the tables: if the client accepts, then a responder made exactly this reply for exactly this first message and the two agree (as in C95), and what each side reads with deserialize::<Message> from its successful receives is, in order, the beginning of the frames for which send_message returned Ok on the other side - or else the attacker computed a block under the payload key or a session key, or such a key was used for another purpose too, or the hash function has a collision among the inputs of the two sides. The second part also holds for any two sessions that are in sync, with a share of q / 2^91. The condition on the session keys is needed: for any two sessions in sync and any frame there is an attacker that computes the blocks of one key and nonce and with one delivery has the responder read the frame though nobody sent it, whatever the table is.", "quantifier": "all prologues, keys, first messages, frames and adaptive attackers, all numbers of steps", "why_tests_cant": "Shares of 2^-91 cannot be measured, and the attackers are arbitrary adaptive programs.", "anchors": ["stratumv2/nx-noise/src/noisesession.rs: init_session, send_message, recv_message, rekey_local_cipherstate, rekey_remote_cipherstate", "stratumv2/nx-noise/src/state.rs: CipherState, SymmetricState, HandshakeState", "stratumv2/nx-noise/src/prims.rs: encrypt, decrypt, hash, hkdf", "stratumv2/src/codec/frame.rs: Message", "stratumv2/src/codec/serialize.rs: serialize", "stratumv2/src/codec/deserialize.rs: deserialize"]}
{"id": "C97", "title": "No observer of any number of sessions can tell what they send, if ChaCha20 is random", "statement": "Let ChaCha20 be a random table of blocks. Take any number of sessions, in any states - new, in the middle of the handshake, in transport mode -, and an attacker that has them make any calls of the API in any order (send_message, recv_message on any bytes, set_ephemeral_keypair, the rekey and the clear functions), has new sessions made with keys of its choice, and computes blocks of ChaCha20 under any keys; it sees all outcomes, all bytes on the wire and after each call the whole session with all its keys. Whenever a message is sent it names two texts of equal length, and it is to find out whether the first or the second ones are sent. The tables can be paired so that everything happens in the same way with the one and the first texts as with the other and the second texts, apart from tables where a text - a transport message, or the payload of the second handshake message - is encrypted with blocks under a key and nonce that are used for anything else: for another text, for the responder's static key, for rekeying, or in a computation of the attacker. So any test of what was seen comes out differently for at most as many tables as that happens for, which are equally many with either texts, and exactly equally often if it never happens. It does not happen among sessions in transport mode that are not replaced or cleared, as long as different sessions send with different keys and nobody uses the blocks for something else, whatever they send, receive and rekey. An attacker that computes a block under the session key reads the text. After clear_local_cipherstate and rekey_local_cipherstate two connections encrypt with the same blocks.", "quantifier": "all families of sessions, all adaptive attackers, all numbers of steps, all texts", "why_tests_cant": "Secrecy is about all attackers and all interleavings of any number of connections; a test decrypts what it has encrypted.", "anchors": ["stratumv2/nx-noise/src/noisesession.rs: NoiseSession", "stratumv2/nx-noise/src/state.rs: CipherState, SymmetricState, HandshakeState", "stratumv2/nx-noise/src/prims.rs: encrypt, decrypt"]}
{"id": "C98", "title": "A failed attempt to send a handshake message", "statement": "send_message on the first handshake message fails exactly with a buffer below 32 or above 65535 bytes and then leaves session and buffer unchanged. On the second one it succeeds exactly with 96 to 65535 bytes (unless a derived key is all zero), and the error for other sizes is as specified. A failed attempt with 32 to 95 bytes (a) overwrites the caller's buffer with the ephemeral public key and, from 80 bytes on, the encrypted static key; (b) leaves the message count, the role and the keys, fixes the ephemeral key, but moves handshake hash and chaining key on. After any number of failed attempts a successful one sends the message, and gives the handshake hash and the transport keys, of a responder that continues from there; so send_message returns Ok and the responder is in transport mode, but the initiator refuses the message, unless a static key encrypted with one derived key decrypts with another one. Only after attempts with less than 32 or more than 65535 bytes is the message as if they had not been made.", "quantifier": "all sessions that have processed at most one message, all lists of attempts, all buffers, all keys", "why_tests_cant": "The lists of attempts of all sizes are unbounded, and the damage shows only on the other side of the connection.", "anchors": ["stratumv2/nx-noise/src/noisesession.rs: send_message", "stratumv2/nx-noise/src/state.rs: HandshakeState::write_message_a, HandshakeState::write_message_b, SymmetricState::encrypt_and_hash"]}
{"id": "C99", "title": "A handshake message that was refused", "statement": "recv_message on the first handshake message returns Ok exactly for 48 to 65535 bytes that do not start with a public key of low order, never changes the buffer, and otherwise changes nothing. On the second one, for any session that waits for it, result, session and buffer are determined by the bytes as follows. Outside 16 to 65535 bytes, below 48 bytes, or with an ephemeral key of low order: the error for that, nothing changed. Otherwise the ephemeral key is mixed into handshake hash and chaining key and stays there; below 80 bytes, or if the static key does not decrypt: an error, the buffer unchanged. If the static key decrypts, it is left in the clear in the buffer whatever comes then, and its ciphertext stays in the handshake hash: an error if it is of low order, a panic if the rest is shorter than 16 or longer than 2048 bytes, an error if the payload does not decrypt, and otherwise Ok with handshake hash, transport keys, static key and payload of the protocol. A refusal leaves message count, role and keys as they were. After any number of refused messages the handshake hash of an initiator that accepts one is that of prologue, first message, what stayed of the refused messages, and the accepted one; so once a message with an acceptable ephemeral key was refused, the genuine answer of the responder is refused as well, unless the static key it encrypted with one key and hash decrypts with others. Messages without an acceptable ephemeral key do not matter, in any number.", "quantifier": "all sessions that have processed at most one message, all byte strings, all lists of refused messages, all keys", "why_tests_cant": "An attacker chooses the bytes and how many messages it injects; that the handshake is spoilt shows only at a later message.", "anchors": ["stratumv2/nx-noise/src/noisesession.rs: recv_message", "stratumv2/nx-noise/src/state.rs: HandshakeState::read_message_a, HandshakeState::read_message_b, SymmetricState::decrypt_and_hash"]}
{"id": "C100", "title": "Serializing to any writer", "statement": "For every message that a constructor returns, every message declared with impl_message!, what an authority signs and the message with the signature, and every frame with a payload below 2^24 bytes: Serializable::serialize offers the wire form to the writer in a fixed list of pieces, one per field and two for a string or byte string (length, contents), one call of write each. With any writer at all: if no call fails it returns Ok with the full size (for a frame: six plus what write reported for the payload); otherwise it makes no further call and returns the error of the call that failed. So with a writer that keeps the contract of io::Write: (a) after Ok what has arrived is the beginnings of the pieces that the calls took, and it is the message exactly if every call took its whole piece - a short write leaves a hole in the middle and is not reported; a writer that takes at most k bytes a call delivers the message whole only if no field is longer than k; (b) after an error what has arrived is such beginnings of the pieces before the failing one; with a writer that takes all or nothing it is a beginning of the message, and after a second, successful call that beginning stands in front of the message. A concrete message sent twice through a writer that takes 32 bytes a call is read as another valid message, without any error on either side.", "quantifier": "all constructible messages, all declarations and field values, all writers and states of them (including failing at any call and taking any part of a buffer)", "why_tests_cant": "Writers are arbitrary programs; tests write to a Vec, which never fails and takes everything.", "anchors": ["stratumv2/src/codec/serialize.rs: Serializable, serialize", "stratumv2/src/codec/frame.rs: Message::serialize", "stratumv2/src/macro_message", "stratumv2/src/types", "stratumv2/src/noise/signature_noise_message.rs", "stratumv2/src/noise/signed_certificate.rs", "stratumv2/src/noise/certificate_format.rs"]}
{"id": "C101", "title": "A client that goes on receiving after errors, if ChaCha20 is random", "statement": "A client has sent its first handshake message and calls recv_message again whenever it returned an error, up to q times. An attacker that knows every secret key, computes ChaCha20 on any keys, nonces and counters of its choice (ChaCha20 is a random table that it asks for single blocks) and has responders with any secrets and prologues answer any first messages gives it the replies and after each one sees the result, the whole session of the client and the buffer. For all but a share of q / 2^90 of the block functions: if the client accepts a reply and get_remote_static_public_key gives rs, then one of the responders made exactly this reply for exactly this first message under the same prologue, rs is its static key, the client got its payload, the same handshake hash and the same transport keys, and none of the refused replies had 48 bytes or more with an ephemeral key that is not of low order - or else the attacker had computed a block under the key of the payload of this reply, or responders used that key more than once, or the hash function has a collision among the inputs of the two sides or maps an input of the client to the hash that every handshake starts with. So going on after errors costs security linearly in the number of replies, although each refused reply moves the state of the client on (C99). The session of the client is at every point that of one that has refused these replies. The condition on the payload key is needed: an attacker that computes blocks under the two handshake keys is accepted with its first reply, for every client, static key and payload.", "quantifier": "all prologues, keys, first messages, numbers of replies and adaptive attackers, whatever the tag key stream outside the table", "why_tests_cant": "Shares of 2^-90 cannot be measured, the attackers are arbitrary adaptive programs and the number of replies is unbounded.", "anchors": ["stratumv2/nx-noise/src/noisesession.rs: init_session, send_message, recv_message, get_remote_static_public_key", "stratumv2/nx-noise/src/state.rs: CipherState, SymmetricState, HandshakeState", "stratumv2/nx-noise/src/prims.rs: encrypt, decrypt, hash, hkdf"]}
{"id": "C102", "title": "A connection from the first message on, with a certificate, if ChaCha20 is random", "statement": "A client has sent its first handshake message and calls recv_message again whenever it returned an error, up to n times, with the attacker of C101 giving it the replies (any blocks of ChaCha20, any responders, sees the whole client). When the client has accepted a reply, the attacker goes on as the network between the client and the responder whose answer it was: it has either side send any frames, has each side call the rekey functions at most E times and delivers at most q messages of its own making, still computing blocks and having responders run handshakes before each step. For all but a share of (2 n + q) / 2^91 of the block functions: if the client accepts a reply, then a responder made exactly this reply for exactly this first message, and what each of the two reads with deserialize::<Message> from its successful receives is the beginning of the frames that the other one sent, in order; unless a key was used for something else (the payload key or a session key by the attacker or another responder, a tag key), the hash function has a collision, or an input of the client has the hash with which every handshake starts. With certificates: if after the handshake CertificateFormat::new on the text of an authority's key, the static key of the other side and a certificate that comes from anywhere, and then verify, return Ok, and the signature is not a forgery, then for all but the same share that responder has a static key for which the authority issued this very certificate, which has not expired while clocks are below 2^32 seconds.", "quantifier": "all prologues, keys, first messages, frames, numbers of replies, adaptive attackers, certificates and clocks, all numbers of steps", "why_tests_cant": "Shares of 2^-91 cannot be measured, the attackers are arbitrary adaptive programs, and what goes wrong in the handshake shows only in the frames or in the certificate.", "anchors": ["stratumv2/nx-noise/src/noisesession.rs: init_session, send_message, recv_message, get_remote_static_public_key, rekey_local_cipherstate, rekey_remote_cipherstate", "stratumv2/nx-noise/src/state.rs: CipherState, SymmetricState, HandshakeState", "stratumv2/nx-noise/src/prims.rs: encrypt, decrypt, hash, hkdf", "stratumv2/src/noise/certificate_format.rs: CertificateFormat::new, verify", "stratumv2/src/codec/frame.rs: Message", "stratumv2/src/codec/serialize.rs: serialize", "stratumv2/src/codec/deserialize.rs: deserialize"]}
{"id": "C103", "title": "Nobody answers a client in place of the server without hashing a shared secret, if hash function and ChaCha20 are random", "statement": "Let the hash function be a random function (on inputs of at most M bytes, M any number from 65567 on, prologues of at most M - 32 bytes; arbitrary beyond) and ChaCha20 a random table of blocks, chosen after everything else. A client sends its first handshake message through send_message and gets a reply from an attacker that knows every secret key and asks at most n questions, each depending on the answers before: for the hash of any input, for a block of ChaCha20 under any key, nonce and counter, and for the answer of a responder with any secrets and prologue - the real servers among them - to any first message, with its whole session. Let servers be any list of public keys. For all but a share of 1 / 2^91 + (n + 1)^2 / 2^240 of the pairs of functions: if the client's recv_message returns Ok and get_remote_static_public_key gives one of the servers, then one of the responders made exactly this reply for exactly this first message under the same prologue, the key is its static key, and the client got its payload, the same handshake hash and the same transport keys - or else an input of the hash function that the attacker asked for, or that stands in the transcript of a handshake, contains the Diffie-Hellman of the client's ephemeral secret and one of these servers at the place where HKDF puts it, or two of the responders had the same two Diffie-Hellman values with the client. So the conditions of C95 on keys and collisions follow: HKDF over a random hash function gives away nothing. The condition on the Diffie-Hellman value is needed: for every client, static key and payload there is an attacker with 2068 questions that asks no responder, asks for the hash of this Diffie-Hellman value, and is accepted whatever the two functions are, if the two handshake keys are not zero.", "quantifier": "all prologues, keys, first messages, lists of servers, numbers of questions and adaptive attackers", "why_tests_cant": "Shares of 2^-91 cannot be measured, the attackers are arbitrary adaptive programs and the hash functions are all functions.", "anchors": ["stratumv2/nx-noise/src/noisesession.rs: init_session, send_message, recv_message, get_remote_static_public_key", "stratumv2/nx-noise/src/state.rs: CipherState, SymmetricState, HandshakeState", "stratumv2/nx-noise/src/prims.rs: hash, hmac, hkdf, encrypt, decrypt"]}
{"id": "C104", "title": "What a client reads came from the server it connected to, unless somebody hashes a shared secret, if hash function and ChaCha20 are random", "statement": "Let the hash function and ChaCha20 be random as in C103. A client sends its first handshake message and gets a reply from an attacker with at most n questions (hashes of any input, blocks of ChaCha20 under any key, answers of responders with any secrets to any first message - of these now only the messages). If the client accepts the reply as the answer of one of the servers, the attacker becomes the network between the client and the responder: for any number of steps it has either side send a frame of its choice or delivers bytes of its choice to it, after at most m questions each time, with at most q deliveries in all; it sees all messages and both sessions except their keys. For all but a share of (q + 1) / 2^91 + (n + rounds * m + 1)^2 / 2^239 of the pairs of functions: if the client accepts, then a responder made exactly this answer for exactly this client, with all that C103 says, and after all the steps the frames that either side read are, in order, the first ones that the other side sent - or else somebody hashed a Diffie-Hellman value of the client's ephemeral secret and one of these servers other than for keys, or two responders had the same two Diffie-Hellman values with the client. So the secrecy of the transport keys, which C95 to C97 assumed, follows from the handshake. The condition on the Diffie-Hellman value is needed: for any two Diffie-Hellman values and any frame there is an attacker with 1044 questions that does not see the keys and whose only delivery is read as this frame by the responder, though the client sent nothing, if the session key is not zero.", "quantifier": "all prologues, keys, first messages, lists of servers, numbers of questions, steps and deliveries, and adaptive attackers", "why_tests_cant": "Shares of 2^-91 cannot be measured, the attackers are arbitrary adaptive programs and the hash functions are all functions.", "anchors": ["stratumv2/nx-noise/src/noisesession.rs: init_session, send_message, recv_message, get_remote_static_public_key", "stratumv2/nx-noise/src/state.rs: CipherState, SymmetricState, HandshakeState", "stratumv2/nx-noise/src/prims.rs: hash, hmac, hkdf, encrypt, decrypt", "stratumv2/src/codec/frame.rs: Message", "stratumv2/src/codec/serialize.rs: serialize", "stratumv2/src/codec/deserialize.rs: deserialize"]}
{"id": "C105", "title": "What client and server say to each other stays secret, unless somebody hashes a shared secret, if hash function and ChaCha20 are random", "statement": "Let the hash function and ChaCha20 be random as in C103, and let a client accept the reply of an attacker as in C104, with at most n questions, where one of the servers made this reply for this client. Then the two talk, with the attacker in between: in each of any number of steps it either names two texts of equal length, of which one of the two sides sends the first - in the other world the second -, or delivers bytes of its choice to one of the two; before each step it has at most m questions (hashes of any input, blocks under any key, answers of responders with any secrets). It sees all messages, the outcome of every call and the sessions except their keys, and after m more questions it says yes or no. The numbers of pairs of functions for which it says yes in the two worlds, with nobody having hashed a Diffie-Hellman value of the client's ephemeral secret and one of the servers other than for keys, differ by at most a share of (n + (rounds + 1) * m + 1)^2 / 2^238 of all pairs. So that the attacker does not know the keys, which C91 and C94 (b) need not assume because there it has no blocks to ask for, follows from the handshake. The condition on the Diffie-Hellman value is needed: for any two Diffie-Hellman values and any two different texts there is an attacker with 1044 questions that does not see the keys and always says which of the texts was sent, if the session key is not zero.", "quantifier": "all prologues, keys, first messages, lists of servers, numbers of questions and steps, texts, and adaptive attackers", "why_tests_cant": "Shares of 2^-238 cannot be measured, the attackers are arbitrary adaptive programs and the hash functions are all functions.", "anchors": ["stratumv2/nx-noise/src/noisesession.rs: init_session, send_message, recv_message", "stratumv2/nx-noise/src/state.rs: CipherState, SymmetricState, HandshakeState", "stratumv2/nx-noise/src/prims.rs: hash, hmac, hkdf, encrypt, decrypt"]}
{"id": "C106", "title": "What client and server said to each other stays secret from who has the server's static secret, if hash function and ChaCha20 are random", "statement": "Let the hash function and ChaCha20 be random as in C103. A client and a server do a handshake and each gets the other's message as it was sent. An attacker, which may be chosen with the knowledge of all secrets and sees the two messages, then sits between the two as in C105: in each of any number of steps it either names two texts of equal length, of which one of the two sides sends the first or the second, or delivers bytes of its choice to one of the two; before each step it has at most m questions (hashes of any input, blocks under any key). It sees all messages, the outcome of every call and the sessions except their keys, and after m more questions it says yes or no. Take two worlds, which may differ in which of the texts are sent and in the payload of the server's handshake message, but not in its length. The numbers of pairs of functions for which the attacker says yes in the two worlds, with nobody having hashed the Diffie-Hellman value of the two ephemeral keys other than for keys, differ by at most a share of ((rounds + 1) * m + 7)^2 / 2^246 of all pairs. The Diffie-Hellman value of the server's static secret may be hashed in any way: so who gets this secret afterwards, or has it all the time and only listens to the handshake, learns nothing about what was sent. The condition on the Diffie-Hellman value of the ephemeral keys is needed: for any two Diffie-Hellman values and any two different texts there is an attacker with 1044 questions that does not see the keys and always says which of the texts was sent, if the session key is not zero.", "quantifier": "all prologues, keys, payloads of the handshake, numbers of questions and steps, texts, and adaptive attackers", "why_tests_cant": "Shares of 2^-246 cannot be measured, the attackers are arbitrary adaptive programs and the hash functions are all functions.", "anchors": ["stratumv2/nx-noise/src/noisesession.rs: init_session, send_message, recv_message", "stratumv2/nx-noise/src/state.rs: CipherState, SymmetricState, HandshakeState", "stratumv2/nx-noise/src/prims.rs: hash, hmac, hkdf, encrypt, decrypt"]}
{"id": "C107", "title": "Changing keys protects earlier messages of the initiator, and only these, from who gets the sessions afterwards", "statement": "Let ChaCha20 be a random block function, and the first key for the messages of the initiator random. Two sessions in transport mode use this key; any number of times an attacker takes some steps, and then both sides call rekey_local_cipherstate. In a step the attacker names two texts of equal length, of which the initiator sends the first or the second, or it delivers bytes of its choice to the responder; before it, it asks at most m questions (blocks under any key, hashes of any input), and it remembers what it likes. It sees messages, outcomes, and the sessions except their keys. After the last change of keys it gets both sessions with all keys, asks m more questions, and says yes or no. The shares of keys and block functions for which it says yes when the first and when the second texts are sent differ by at most 2 * times * (times * steps * m + m + times) / 2^256. The messages of the responder are not protected: after any calls of rekey_local_cipherstate and rekey_remote_cipherstate (which both change the key of the initiator's messages) each side still has the key that opens every message that the responder has sent. And the change of keys is needed: before it the initiator has the key that opens what it has just sent.", "quantifier": "all sessions in transport mode, numbers of steps, changes of keys and questions, texts, adaptive attackers with any memory, and sequences of calls", "why_tests_cant": "Shares of 2^-256 cannot be measured, and the attackers are arbitrary adaptive programs; that a key is gone cannot be seen from outputs.", "anchors": ["stratumv2/nx-noise/src/noisesession.rs: rekey_local_cipherstate, rekey_remote_cipherstate, send_message, recv_message", "stratumv2/nx-noise/src/state.rs: CipherState::rekey"]}
{"id": "C108", "title": "Who only watches cannot tell which server a client talks to, if hash function and ChaCha20 are random; who connects can", "statement": "Let the hash function and ChaCha20 be random as in C103. A client does a handshake with one of two servers, which have any two static secrets, and each side gets the other's message as it was sent. An attacker, which may be chosen with the knowledge of all secrets, those of both servers among them, and sees the two messages, then sits between the two as in C106; it sees all messages, the outcome of every call and the sessions except their keys and the static key that the client got, and in the end it says yes or no. The numbers of pairs of functions for which it says yes with the one server and with the other, with nobody having hashed the Diffie-Hellman value of the two ephemeral keys other than for keys, differ by at most a share of ((rounds + 1) * m + 7)^2 / 2^246 of all pairs; the two worlds may also differ in the client's static key pair, in the payload of the server's handshake message (not in its length) and in which of the texts are sent. The condition is needed: for any Diffie-Hellman value there is an attacker with 1032 questions that gets the static public key of any server from its message, if the ephemeral keys have this value. And against who connects there is no protection: a client, which needs no secret of its own, gets the static public key of the server with every answer that it can take.", "quantifier": "all prologues, keys, pairs of servers, payloads of the handshake, numbers of questions and steps, texts, and adaptive attackers", "why_tests_cant": "Shares of 2^-246 cannot be measured, the attackers are arbitrary adaptive programs and the hash functions are all functions.", "anchors": ["stratumv2/nx-noise/src/noisesession.rs: init_session, send_message, recv_message, get_remote_static_public_key", "stratumv2/nx-noise/src/state.rs: HandshakeState::write_message_b, read_message_b", "stratumv2/nx-noise/src/prims.rs: hash, hmac, hkdf, encrypt, decrypt"]}
{"id": "C109", "title": "After a handshake that nobody disturbed, nobody talks in the place of client or server, not even with the server's static secret, if hash function and ChaCha20 are random", "statement": "Let the hash function and ChaCha20 be random as in C103. A client and a server do a handshake and each gets the other's message as it was sent. An attacker, which may be chosen with the knowledge of all secrets, the server's static secret among them, and sees the two messages, is then the network between the two: in each of any number of steps it has one of the two send a frame of its choice, or delivers bytes of its choice to one of the two, after at most m questions (hashes of any input, blocks under any key), with at most q deliveries, and without seeing the keys. For all but a share of (q + 1) / 2^91 + (rounds * m + 7)^2 / 2^247 of the pairs of functions, what each of the two reads is, in order and without gap, the beginning of the frames that the other sent - or somebody hashed the Diffie-Hellman value of the two ephemeral keys other than for keys. The same holds for a server alone that gets a first message with the public key of an ephemeral secret that the attacker does not have, say a copy of a client's earlier message: with the same exceptions the server accepts nothing that is delivered to it. The condition on the Diffie-Hellman value is needed: for any two Diffie-Hellman values and any frame there is an attacker with 1044 questions that does not see the keys and has the server read the frame though the client sent nothing, if the session key is not zero.", "quantifier": "all prologues, keys, payloads of the handshake, numbers of questions, deliveries and steps, frames, and adaptive attackers", "why_tests_cant": "Shares of 2^-91 cannot be measured, the attackers are arbitrary adaptive programs and the hash functions are all functions.", "anchors": ["stratumv2/nx-noise/src/noisesession.rs: init_session, send_message, recv_message", "stratumv2/nx-noise/src/state.rs: CipherState, SymmetricState, HandshakeState", "stratumv2/nx-noise/src/prims.rs: hash, hmac, hkdf, encrypt, decrypt", "stratumv2/src/codec/frame.rs: Message", "stratumv2/src/codec/serialize.rs: serialize", "stratumv2/src/codec/deserialize.rs: deserialize"]}
{"id": "C110", "title": "With random keys after the handshake, frames stay genuine while the sides change keys, and nobody on the network gets hold of a key", "statement": "Let two sessions in transport mode, with the same nonces and message count, have two keys that are chosen at random, and let ChaCha20's block function be random. An attacker that sees all states and messages but not the keys is the network between the two: in each of any number of steps it has one of the two send a frame of its choice, delivers bytes of its choice to one of the two, or has one of the two call one of its rekey functions (each side at most E times, not at the same time and not the same number of times); before each step it computes at most m blocks with keys of its choice, with the knowledge of all blocks it asked for. For all but a share of (E + 2) * (rounds * m + E + 2) / 2^256 of keys and block functions it has not computed a block with any key that a session has or will have after up to E changes, and none of these keys is the same for both directions. For all but that share plus q / 2^91, where q is the number of deliveries, what each of the two reads is, in order and without gap, the beginning of the frames that the other sent.", "quantifier": "all sessions in transport mode, keys, block functions, numbers of blocks, deliveries, changes of keys and steps, frames, and adaptive attackers", "why_tests_cant": "Shares of 2^-91 cannot be measured, and the attackers are arbitrary adaptive programs that may rekey the two sides in any order.", "anchors": ["stratumv2/nx-noise/src/noisesession.rs: send_message, recv_message, rekey_local_cipherstate, rekey_remote_cipherstate", "stratumv2/nx-noise/src/state.rs: CipherState", "stratumv2/nx-noise/src/prims.rs: encrypt, decrypt", "stratumv2/src/codec/frame.rs: Message", "stratumv2/src/codec/serialize.rs: serialize", "stratumv2/src/codec/deserialize.rs: deserialize"]}
{"id": "C111", "title": "After a handshake that nobody disturbed, nobody talks in the place of client or server while these change keys, not even with the server's static secret, if hash function and ChaCha20 are random", "statement": "As C109 for client and server, but in its steps the attacker may also have one of the two call one of its rekey functions, each side at most E times, not at the same time and not the same number of times. For all but a share of (q + 1) / 2^91 + (rounds * m + E + 7)^2 / 2^247 + E * (rounds * m + E + 4) / 2^256 of the pairs of hash and block functions, what each of the two reads is, in order and without gap, the beginning of the frames that the other sent - or somebody hashed the Diffie-Hellman value of the two ephemeral keys other than for keys. A server that is given a first message with a public key of which nobody there has the secret, such as a copy of an older message, and that changes its keys at most E times, accepts nothing at all, for all but the same share (C111_replay).", "quantifier": "all prologues, keys, payloads of the handshake, numbers of questions, deliveries, changes of keys and steps, frames, and adaptive attackers", "why_tests_cant": "Shares of 2^-91 cannot be measured, the attackers are arbitrary adaptive programs that may rekey the two sides in any order, and the hash functions are all functions.", "anchors": ["stratumv2/nx-noise/src/noisesession.rs: init_session, send_message, recv_message, rekey_local_cipherstate, rekey_remote_cipherstate", "stratumv2/nx-noise/src/state.rs: CipherState, SymmetricState, HandshakeState", "stratumv2/nx-noise/src/prims.rs: hash, hmac, hkdf, encrypt, decrypt", "stratumv2/src/codec/frame.rs: Message", "stratumv2/src/codec/serialize.rs: serialize", "stratumv2/src/codec/deserialize.rs: deserialize"]}
{"id": "C112", "title": "What a client reads came from the server it connected to also while the two change keys, unless somebody hashes a shared secret, if hash function and ChaCha20 are random", "statement": "As C104, with the same attacker on the handshake and on the network, but in its steps the attacker may also have one of the two sides call one of its rekey functions, each side at most E times, not at the same time and not the same number of times. For all but a share of (q + 1) / 2^91 + (n + rounds * m + E + 1)^2 / 2^239 of the pairs of hash and block functions: if the client accepts the reply as one of one of the servers, then a responder made exactly this answer for exactly this client, and after all the steps the frames that either side read are, in order, the first ones that the other side sent - or else somebody hashed a Diffie-Hellman value of the client's ephemeral secret and one of these servers other than for keys, or two responders had the same two Diffie-Hellman values with the client. So that nobody knows the later keys follows from the handshake, too.", "quantifier": "all prologues, keys, first messages, lists of servers, numbers of questions, steps, deliveries and changes of keys, and adaptive attackers", "why_tests_cant": "Shares of 2^-91 cannot be measured, the attackers are arbitrary adaptive programs that take part in the handshake and may rekey the two sides in any order, and the hash functions are all functions.", "anchors": ["stratumv2/nx-noise/src/noisesession.rs: init_session, send_message, recv_message, get_remote_static_public_key, rekey_local_cipherstate, rekey_remote_cipherstate", "stratumv2/nx-noise/src/state.rs: CipherState, SymmetricState, HandshakeState", "stratumv2/nx-noise/src/prims.rs: hash, hmac, hkdf, encrypt, decrypt", "stratumv2/src/codec/frame.rs: Message", "stratumv2/src/codec/serialize.rs: serialize", "stratumv2/src/codec/deserialize.rs: deserialize"]}
{"id": "C113", "title": "With random keys after the handshake, an attacker that can compute ChaCha20 blocks cannot tell which of two texts is sent, also while the sides change keys", "statement": "Let an initiator's and a responder's session in transport mode have two keys that are chosen at random, and let ChaCha20's block function be random. An attacker chooses, in each of any number of steps, two texts of the same length, of which one of the two parties sends the first or - in the other experiment - the second, or delivers bytes of its choice to a party, or has a party call one of its rekey functions; before each step and before it says yes or no in the end it computes at most m blocks with keys of its choice. It sees the result of every call, all messages on the wire, and the states of the sessions but for the keys and the texts that are read. The shares of keys and block functions for which it says yes in the two experiments differ by at most 2 * (rounds + 2) * (rounds * m + m + rounds + 2) / 2^256.", "quantifier": "all sessions in transport mode, keys, block functions, numbers of blocks and steps, texts, and adaptive attackers", "why_tests_cant": "A difference of 2^-256 cannot be measured, and the attackers are arbitrary adaptive programs that may rekey the two sides in any order, also so that the two do not understand each other any more.", "anchors": ["stratumv2/nx-noise/src/noisesession.rs: send_message, recv_message, rekey_local_cipherstate, rekey_remote_cipherstate", "stratumv2/nx-noise/src/state.rs: CipherState", "stratumv2/nx-noise/src/prims.rs: encrypt, decrypt"]}
{"id": "C114", "title": "What client and server said to each other stays secret from who has the server's static secret also while the two change keys, if hash function and ChaCha20 are random", "statement": "As C106, with the same handshake that nobody disturbed and an attacker that may be chosen with the knowledge of all secrets, but in its steps the attacker may also have one of the two sides call one of its rekey functions, as often as it likes, not at the same time and not the same number of times. Take two worlds, which may differ in which of the texts are sent and in the payload of the server's handshake message, but not in its length. The numbers of pairs of functions for which the attacker says yes in the two worlds, with nobody having hashed the Diffie-Hellman value of the two ephemeral keys other than for keys, differ by at most a share of ((rounds + 1) * m + rounds + 7)^2 / 2^246 of all pairs. (That the condition is needed is C106_informed: an attacker that has nobody change keys is one of these.)", "quantifier": "all prologues, keys, payloads of the handshake, numbers of questions and steps, texts, and adaptive attackers", "why_tests_cant": "Shares of 2^-246 cannot be measured, the attackers are arbitrary adaptive programs that may rekey the two sides in any order, and the hash functions are all functions.", "anchors": ["stratumv2/nx-noise/src/noisesession.rs: init_session, send_message, recv_message, rekey_local_cipherstate, rekey_remote_cipherstate", "stratumv2/nx-noise/src/state.rs: CipherState, SymmetricState, HandshakeState", "stratumv2/nx-noise/src/prims.rs: hash, hmac, hkdf, encrypt, decrypt"]}
{"id": "C115", "title": "What client and server send stays secret also while the two change keys from an attacker on the network, if hash function and ChaCha20 are random", "statement": "As C105, with the same attacker that gives the client its reply and may ask responders, but in its steps the attacker may also have one of the two sides call one of its rekey functions, as often as it likes, not at the same time and not the same number of times. Take the two worlds that differ in which of the texts are sent. The numbers of pairs of functions for which the client accepts, the reply was made for it by one of the servers, the attacker says yes, and nobody hashed a shared secret of the client with one of the servers other than for keys, differ by at most a share of (n + (rounds + 1) * m + rounds + 1)^2 / 2^238 of all pairs. (That the condition is needed is C105_informed: an attacker that has nobody change keys is one of these.)", "quantifier": "all prologues, keys, messages, lists of servers, numbers of questions and steps, texts, and adaptive attackers", "why_tests_cant": "Shares of 2^-238 cannot be measured, the attackers are arbitrary adaptive programs that may rekey the two sides in any order, and the hash functions are all functions.", "anchors": ["stratumv2/nx-noise/src/noisesession.rs: init_session, send_message, recv_message, rekey_local_cipherstate, rekey_remote_cipherstate", "stratumv2/nx-noise/src/state.rs: CipherState, SymmetricState, HandshakeState", "stratumv2/nx-noise/src/prims.rs: hash, hmac, hkdf, encrypt, decrypt"]}
