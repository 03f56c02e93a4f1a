# Design

A Lean 4 model of the wire codec, the messages, the certificates, the Noise NX session and the small
network helpers and the two example programs of rust-stratum-v2, and proofs of the properties in `properties.jsonl`.

## Layout

- `lean/Verif/Rust/` - Rust vocabulary: outcomes (`ok`/`err`/`panic`), state-passing functions, bytes,
  little-endian integers, fixed arrays, UTF-8 strings.
- `lean/Verif/Model/` - the model, function by function. Every definition cites its file and lines; `COVERAGE.md` lists
  for every function of the sources the definitions that cite it.
- `lean/Verif/Spec/` - specifications that do not use the model's functions (wire format, validity
  predicates, abstract queues, transcripts).
- `lean/Verif/Lemmas/` - helper lemmas.
- `lean/Verif/Props/` - the property theorems, one file per group, named `C01_...`; each is followed by
  a concrete non-trivial case that meets its hypotheses.

## Modelling decisions

- A Rust `Result`-returning function is modelled with three outcomes: `ok`, `err` (with the error kind
  and message), `panic`. Functions taking `&mut` are state-passing and return the state on every path,
  because Rust does not roll back on `Err`.
- Panics modelled: slice/array bounds, `split_at_mut`, `copy_from_slice` length mismatch, `unwrap`,
  integer overflow (overflow checks on). The release variant (wrapping) is modelled separately for the
  parser (C87) and for the sessions (C90).
- `[u8]`/`Vec<u8>` are lists of bytes. `usize` values are natural numbers; the places where 64-bit
  overflow or an `as` cast matters are explicit; C87 shows that parsing is the same on other targets,
  C90 that sessions are. Allocation failure is not modelled. The `usize` sum of
  field sizes in the message macro is an unbounded sum (each term is at most the length of an existing
  allocation).
- Rust `String` is Lean `String` (both are exactly valid UTF-8); `String::from_utf8` is Lean core's
  validity check, whose specification is `ByteArray.IsValidUTF8`.
- `f32` is its 32 bits, plus IEEE equality for `==`.
- The declarative macros (`impl_message!`, `impl_setup_connection!`, `impl_sized_STR0!`,
  `impl_sized_B0!`, `impl_bitflags_serde!`, `impl_error_code_enum!`, ...) are modelled by definitions
  generic in the same parameters, or by one instance per expansion.
- `bitflags` structs carry the invariant that only declared bits are set, because the field is private.
- Cryptographic primitives (BLAKE2s, ChaCha20-Poly1305, X25519, ed25519, base58) are parameters of the
  model (a structure of functions), not axioms. Facts about them are explicit hypotheses collected in a
  structure: output lengths, decryption inverts encryption and accepts nothing else for a given key and
  nonce than what encryption of the result yields, X25519 commutes, honest public keys are not of low
  order, verification accepts honest signatures. HMAC, HKDF, MixKey, MixHash, Split, EncryptAndHash and
  the message patterns are modelled concretely. A toy instance shows the hypotheses are consistent, and for
  BLAKE2s, ChaCha20-Poly1305 and X25519 as RFC 7693, 8439 and 7748 define them (`Model/Crypto`, checked
  against the test vectors of the RFCs) the hypotheses are proved (C68); likewise for Ed25519 (RFC 8032, with
  SHA-512) and base58 (C71). That the crates blake2-rfc, hacl-star, ed25519-dalek and bitcoin compute these
  functions is trusted. ed25519-dalek accepts 26 encodings of public keys that the RFC refuses; a second scheme
  with its decompression is modelled and compared with the RFC (C77).
- Randomness (fresh key pairs, the words of the generator behind channel ids) and the clock are inputs. `gen_range`
  is modelled as a function of those words; that rand 0.7 computes it is trusted.
- Security statements up to C90, and C98 and C99, are reductions: they exhibit a forgery or a collision. C91 to C97 and
  C101 to C108 count instead: they bound the share of the tables that stand for ChaCha20 (its key stream, its one-time
  keys, or its blocks; in C103 to C106, C108, C109, C111, C112, C114 and C115 also of the functions that stand for the hash function) with which an attack succeeds.
  That ChaCha20 and BLAKE2s behave like such tables is an assumption about them, not proved.

## Plan per property

| id | modelled | proof |
|----|----------|-------|
| C01-C03 | `types/primitives.rs`, `types/fixed.rs` | little-endian arithmetic by induction on the width; codec laws |
| C04 | `types/strings.rs` | codec law generic in MAX; decision table of the decoder |
| C05 | `types/bytes.rs` | codec law generic in length type and MAX, 5 instances |
| C06 | `types/flags.rs`, four flag sets | codec law generic in the mask |
| C07 | `types/error_code.rs`, both enums | case analysis for the table; rejection for all strings |
| C08 | `types/message_type.rs` | case analysis over the enum; all pairs |
| C09 | `codec/parser.rs`, debug and release arithmetic | case analysis with arithmetic |
| C10 | every `Deserializable` | compositional no-panic law |
| C11, C13, C14 | every message | compositional codec laws (bind rules) |
| C12 | every message | compositional canonicity law |
| C15 | generic writer, slice writer | law for every capacity |
| C16-C20 | `codec/frame.rs` | codec law; decision table; induction over the list of frames |
| C21, C22, C27 | `frame`, `unframe`, all Frameable types | from C11, C18 and size bounds |
| C23-C26, C29 | the setup messages, `common/setup_connection.rs` | case analysis on constructor; canonicity law |
| C28 | f32 equality | bit-level definition |
| C30-C35, C55 | `noise/*.rs`, `types/unix_timestamp.rs` | codec injectivity, reductions to ed25519 |
| C36-C51 | `nx-noise/src/*` | invariants over call histories, refinement of the transport to FIFOs, reductions |
| C52 | `network/peer.rs` | small-step thread model with a lock, invariant |
| C53 | `network/channel.rs`, `gen_range` of rand 0.7 (`Model/Rand.lean`) | arithmetic, counting the words that give an id, pigeonhole |
| C54, C57 | `network/encryptor.rs` | from C38, C39 and the decision table of `read_message_b` |
| C56 | `CipherState::rekey` | the two nonces differ |
| C58 | `examples/noise_handshake.rs` | from C33, C38, C45; induction over the connections |
| C59 | `examples/setup_connection.rs` | from C11, C12, C13, C18, C22 |
| C60 | `types/{strings,bytes,fixed}.rs` with public fields | decision tables of C04, C05; splice into the message codec |
| C61 | `PartialEq`, `From`, `TryFrom` of the wire types | constructors determine both fields |
| C62 | `network/encryptor.rs`, the loop of `fuzz/src/bin/connection_encryptor.rs` | invariant on the message count, from C57 |
| C63, C64 | the `Error` and `Display` implementations of both error types | induction over the steps; digits and separators |
| C65 | key and key pair functions of `types.rs` | case analysis |
| C66 | the constructors of every message | unfolding the checks |
| C67 | the named flags, `union` and `contains` of bitflags 1.2 | finite case analysis over the choices, C06 for the rest |
| C68 | BLAKE2s, ChaCha20-Poly1305, X25519 from the RFCs | the ladder computes multiples of a point of Mathlib's `WeierstrassCurve.Affine.Point` over the algebraic closure; primality by Pratt certificates; xor cancels |
| C69 | the same with `types.rs`, `consts.rs`, `state.rs` | a clamped scalar is a multiple of 8; Euler's criterion for the list; from the lemmas of C38 |
| C70 | `prims.rs` on slices, the functions of `state.rs` without a caller | induction over the key for the padding loop; the rest by computation |
| C71 | SHA-512, Ed25519 and base58 (`Model/Crypto`), `noise/`, the example | group law of the Edwards curve from polynomial identities; extended coordinates represent points; square roots for decoding; digits in two bases |
| C72 | the same | the neutral point |
| C73 | `macro_message/message.rs` for any list of fields (`Model/Macro.lean`) | induction over the fields; the messages of the library are expansions |
| C74 | `types/error_code.rs`, `types/message_type.rs` for any table (`Model/Tables.lean`), `types/strings.rs`, `types/bytes.rs` for any bound | equivalence of the round trip with conditions on the table or bound; witnesses for tables that break them |
| C75 | all decoders as in C10-C13; the receive loop in `Spec/Stream.lean` is what a user writes, it is not in the library | combinators `Stable`, `Shifts`, `Asks` per decoder; induction over the buffer for the loop |
| C76 | `noise/` and `nx-noise` transport with `network/message.rs`; the use of the two is in `Spec/Stack.lean`, after `examples/noise_handshake.rs` | C39, C40 composed with C18 and C21; computation for the tag |
| C77 | key decompression as in curve25519-dalek (`decodeCrate`, `verifyCrate`, scheme `dalek`), with the model of C71 | the additional encodings by decision over the 19 values above p and the two points with x = 0; the rest as for C71 |
| C78 | `fuzz/src/bin` (`Model/Fuzz.lean`) with the decoders, the encryptor and the signatures of C71 | from C10, C31 and C57; the last byte of a little-endian number |
| C79 | `set_ephemeral_keypair` with the session of C38 | the state differs only in `e`, which only the two write functions, and `ee`, `es` of the reader, look at; C38, C41 |
| C80 | `examples/setup_connection.rs` as two tasks with sockets (`Model/Programs.lean`) | the state after a schedule is a function of two counters; C59 for the handlers; C18 for frames cut short |
| C81 | `examples/noise_handshake.rs` in the same way | the same with C58 |
| C82 | the sessions of C38 and certificates of C33, many servers and connections (`Spec/Authentication.lean`) | an accepted answer has the shape of C45; the hash binds it to the connection that encrypted it; C33 and C40 composed |
| C83 | `network/config.rs` (`Model/Config.lean`), the client of C58 | the run of C58 with a stored message; C31, C33 |
| C84 | `network/encryptor.rs` | a second message on the wire has the shape of C82; two sessions in step, by induction on the calls |
| C85 | `network/channel.rs`: `Channel`, `ChannelManager` (`Model/Config.lean`) | counting injections (Mathlib), the inequality of the means above, an exact product below |
| C86 | the session and handshake model of C36-C48 | two runs side by side: a relation between sessions that differ in keys, kept by every call |
| C87 | `codec/parser.rs`: `next_by` for any width (`Model/Width.lean`) | every decoder as a tree of requests, run with either `next_by` |
| C88 | the two example programs when strangers use the loopback interface too and calls fail (`Model/OpenPrograms.lean`) | invariants over all events: what a task knows is a function of the connections made to it in turn; C58, C59, C80, C81; witnesses by computation |
| C89 | sessions whose initiator flags are equal or swapped (noisesession.rs `init_session`, `send_message`, `recv_message`) | C38 and the fact that no call before the third message looks at the flag (C86); nonces of C41; the key stream of ChaCha20 as prefix-closed; AEAD tightness for what is accepted |
| C90 | the session functions with wrapping or checked arithmetic and any width of `usize` (`Model/Noise/Build.lean`) | the nonces count the messages: an invariant over all histories; then call by call |
| C91 | the session in transport mode and the second handshake message, with the AEAD replaced by random pads and any MAC (`Spec/Secrecy.lean`) | a bijection of the pads, by induction on the moves: each message sent uses a row of the pads that nothing after it depends on |
| C92 | the two sessions and the network of C40 with the AEAD replaced by any key stream and Poly1305 under random one-time keys (`Spec/Integrity.lean`) | a second run where exactly the messages sent are accepted, equal up to the first forgery and depending on a one-time key through one tag; counting the keys of that tag; the polynomials of Poly1305 over the field with 2^130 - 5 elements |
| C93 | the network of C40 and the rekey functions (`Spec/Rekey.lean`) | one invariant for a direction that counts epochs; for the counting, the second run of C92 with rekeying |
| C94 | C91 and C93 with frames as in C76, over a table for the block function of ChaCha20 (`Spec/Ideal.lean`) | a table is the one-time keys and the rest, or the pads and the rest: sums over the rest; a table leads from one key to the other by rekeying only through a block not used before |
| C95 | a client answered by a program that asks for blocks of ChaCha20 and for answers of responders (`Spec/Impersonation.lean`) | for fixed blocks with counters above 0, the reply and the answers under the payload key depend on the one-time key of that key only through one tag: C92's argument, with the rest of the table kept; a genuine tag means the same hash, so the same messages or a collision |
| C96 | C95 followed by C94's network, with an attacker that asks for blocks and for handshakes before each step (`Spec/Channel.lean`) | for each run of the attacker up to its reply, the one-time keys with this run: the property does not depend on the one-time keys of the sessions, so C93's counting goes through inside it; sum over the runs, and C95 |
| C97 | any number of sessions and an attacker that also asks for blocks (`Spec/Crowd.lean`) | each step uses known rows of the table besides its text; a run that stops when a row is used twice is a game in which the row of a text can be exchanged for one that gives the other text (`Game.swap`), so the tables are paired; without stopping the two runs agree as long as no row is used twice |
| C98 | `write_message_a`, `write_message_b` on all buffers; what failed attempts leave behind (`Spec/Retry.lean`) | case analysis, induction on the list of attempts |
| C99 | `read_message_a`, `read_message_b` on all byte strings; what refused messages leave behind (`Spec/Reread.lean`) | case analysis, induction on the list of messages |
| C100 | all `serialize` functions with an arbitrary `io::Write` (`Spec/Writers.lean`) | monad laws piece by piece, induction on the pieces |
| C101 | `recv_message` of a client again and again, with the attackers of C95 (`Spec/Insistence.lean`) | a client whose checks are answered by what responders made; union bound over the 2q tag checks; transcripts of different lengths |
| C102 | C101 and C96 one after the other, and the check of the certificate (`Spec/Connection.lean`) | C101 and C96: the replies do not depend on the rows of the session keys; C33 and C34 |
| C103 | C95 with a random hash function that the attacker asks as well (`Spec/Oracle.lean`) | all hashes and blocks that anybody asks for as one program; the six hashes of HKDF on a shared secret are a chain of which only the chaining key and the blocks of the key are seen, and in an ideal world these are values of their own; a bijection between the good tables of both worlds; in the real world then nothing happens by chance, so the conditions of C95 hold |
| C104 | C103 followed by C96, where the network goes on asking for hashes and does not see the keys (`Spec/Outsider.lean`) | handshake, questions and all deliveries as one program; the derivation of the two transport keys is one more hidden chain; in the ideal world the keys are values of their own that no question and no other session uses, so that each delivery is a guess against a fresh one-time key as in C96; the bijection of C103 carries this back |
| C105 | C104 with the game of C94 (b) in place of frames: one of two texts is sent, the attacker sees everything but the keys (`Spec/Eavesdrop.lean`) | the same program with the two texts as one more input; in the ideal world the session keys are values of their own that no question uses, so that C94 (b) gives a bijection of the block functions under which the same is seen; the count of C104 for the runs where the ideal and the real world differ, once for each world |
| C106 | the game of C105 after a handshake whose messages arrive as they were sent, with an attacker that may know every secret; what is not to be hashed is the shared secret of the two ephemeral keys with the first chaining key (`Spec/Forward.lean`) | one chain of eighteen hashes from this shared secret to the four keys (`Lemmas/Long.lean`); in the ideal world the four rows of blocks are values of their own, so that a bijection of the second row takes one payload to the other, and C94 (b) does the rest; the same count of the runs where the two worlds differ |
| C107 | a game in which both sides change keys now and then and the attacker, with a memory of its own, gets both sessions after the last change; the key and the block function are counted (`Spec/Stolen.lean`) | the first messages get a row of blocks of their own, which makes a difference only for a key that is asked for or comes up later; the block of the change of keys is used for nothing else, so the next key is random again and the rest is the same game with one change less, the attacker doing the first steps by itself (`Lemmas/Stolen.lean`) |
| C108 | the game of C106 with two servers in place of two payloads; what the attacker does not look at is in `Spec/Incognito.lean` | in the ideal world of C106 a bijection of the first two rows takes the message of one server to that of the other, and the client's static key is used by no step after the handshake (`Lemmas/Incognito.lean`); the two real worlds differ in the shape of the chain of hashes only |
| C109 | the network of C104 after the handshake of C106 (`Spec/Intruder.lean`); a server that answers a first message of which nobody there has the secret | the chain of C106 with the rounds of C104 in place of texts: when nothing happens by chance the run is one of C96 with keys that nobody asked for, so C96 counts the deliveries (`Lemmas/Intruder.lean`); a server alone is the same with a client that does nothing |
| C110 | the network of C96 with random keys, and the attacker of C104 that does not see them (`Spec/Renewal.lean`) | in another world the sessions have fixed keys and each key, first or later, has blocks of its own; the real keys are chosen independently of what happens there, so they are seldom among the keys that were computed with, and as long as they are not, both worlds look the same; the real keys and blocks are as likely as those put together from the other world (`Lemmas/Renewal.lean`) |
| C111 | C109 with rekeying, as in C110 | for one hash function the first two keys are given, and the later ones are chosen independently of a world with fixed keys as in C110: who does not use the first ones uses none of the later ones (`few_known`); the program of C109, which now also asks for the rows of the later keys, does not use the first ones (`Lemmas/Renewed.lean`); a server alone is the same with a client that does nothing (`Spec/Rerun.lean`) |
| C112 | C104 with rekeying, as in C110 | the first two keys come from a handshake that depends on the blocks of the keys used in it; with the blocks of all other keys free, the later keys are chosen independently of a world with fixed keys as in C111 (`few_learn`), where now the attacker may ask responders: what an answer depends on are the blocks of its two keys (`play_same`, `Lemmas/Onward.lean`); the program of C104 also asks for the rows of the later keys (`Lemmas/OnwardTalk.lean`) |
| C113 | C94_secret with an attacker that computes blocks, for random keys | as in C110 the sessions get fixed keys and blocks of their own (`run_clad`), and the attacker does not notice as long as it does not use a key of the sessions (`run_off`); there the exchange of pads of C91, which leaves the blocks alone that new keys are made of (`Duo.blocks_swap`), is one of the rows of the fixed keys (`card_rows`), so that it says yes equally often (`Lemmas/Snoop.lean`) |
| C114 | the game of C106 with the attacker of C113 (`Spec/Tap.lean`) | the chain of C106, in whose ideal world the four keys are values of their own; there each later key of the initiator's messages is put in a world of its own as in C110 (`lateJob_near`), and the exchange of pads of C113 makes the two counts alike; `card_real_near` is the count of C106 with room for this difference (`Lemmas/TapCount.lean`, `Lemmas/Tap.lean`) |
| C115 | the game of C105 with the attacker of C113 (`Spec/Lurk.lean`) | the program of C105, in whose ideal world the last two rows of the client's chain may be given apart, whichever chain it is (`card_behind`); then each later key of the initiator's messages is put in a world of its own as in C110, where neither the attacker before nor the one after the handshake meets it (`lurkJob_fresh`), and the exchange of pads of C113 makes the two counts alike; a program that finds an empty key says yes in the one world and no in the other (`Lemmas/LurkCount.lean`, `Lemmas/Lurk.lean`) |

Where the code does not satisfy the property as a user would state it (C02, C12 for bool, C15, C17, C24,
C28, C29, C34, C42, C43, C45, C46, C47, C49, C54, C56, C57, C58, C59, C60, C61, C62, C63, C65, C69, C72, C73, C74, C75, C76, C77, C78, C79, C80, C81, C83, C84, C85, C88, C89, C98, C99, C100) the violation is proved with a witness (or for all
inputs) and the part that does hold is proved next to it.

## Not modelled

- The code of the crypto crates and of base58 (their functions are specified); constant-time behaviour; memory zeroing
  beyond the values of the fields; randomness quality.
- The code of `io::Write` implementations other than `Vec<u8>` and `&mut [u8]`: a writer is any function with a state
  (C100 speaks about all of them), and an I/O error is one outcome of it, without its kind.
- `network/message_handler.rs` (traits without code), the `Debug` and `Clone` derivations, and the `Display` of flags. A
  `HashMap` is the function that `get` computes; the mutex around it in `ChannelManager` is not modelled (C52 is about the
  one in `Peer`). No code of the library uses `NoiseConfig` or puts channels into a `ChannelManager`: C83 and C85 speak
  about a use as documented, which their files define. The
  test modules are not part of the model; `Props/RepoTests.lean` runs their cases on it.
- Sockets and the async runtime, beyond this: `try_read` copies what has arrived to the start of the buffer (C58, C59
  take the arrived bytes as given); for C80 and C81 there are two listeners with queues, connections that carry bytes in
  order and are read once, and a scheduler that interleaves the two tasks of a process between their socket calls. C88 adds
  connections from elsewhere, failing calls, and a `try_write` that writes only a part.

## Trusted base

- Lean's kernel, and the axioms `propext`, `Quot.sound`, `Classical.choice`.
- The fidelity of the model to the Rust source, definition by definition as cited. `Props/RepoTests.lean` checks that
  the model passes the tests of the project.

## Axioms each theorem depends on

As printed by `#print axioms`; every other theorem named in `MANIFEST.json` depends on all of `propext`,
`Classical.choice` and `Quot.sound`.

- No axioms: `C08_table`, `C08_getters`, `C22_unframe`, `C30_new_refused`, `C35_not_monotone`, `C47_low_order`,
  `C54_stubs`, `C63_noise_endless`, `Tables.C74_library_tables`.
- `Quot.sound`, `propext`: `C02_new`, `C04_new`, `C04_limits`, `C09_next_by_release`, `C17_refused`, `C23_new_iff`,
  `C23_new_fields`, `C23_enum`, `C23_new_errors`, `C26_new`, `C30_new_iff`, `C35_value`, `C35_exact_monotone`,
  `C37_refused`, `C37_transport`, `C38_short_first_message`, `C39_send`, `C40_no_panic`, `C41_nonces`,
  `C41_distinct`, `C41_exhausted`, `C41_exhausted_recv`, `C41_directions_differ`, `C42_transport`,
  `C42_rejects_ignored`, `C42_send`, `C42_handshake_state`, `C42_handshake_broken`, `C45_ignored_failure`,
  `C45_roles_not_enforced`, `C46_one_sided`, `C47_from_bytes`, `C47_receive`, `C48_not_in_handshake`,
  `C49_tag_stays`, `C49_nonzero`, `C50_layout`, `C50_injective`, `C50_not_rekey`, `C51_from_str`, `C51_otherwise`,
  `C51_length`, `Rand.C53_words`, `C53_range`, `C53_injective`, `C53_not_unique`, `C54_delivered`, `C54_lost`,
  `C56_deviates`, `C56_rfc`, `C58_empty_connection`, `C59_miner`, `C61_str`, `C61_u24`, `C63_ends_iff`,
  `C63_encryptor`, `C66_open_requests`, `C66_total`, `C66_setup_enum`, `C67_contains`, `C68_vectors`, `C69_keys`,
  `C70_hmac`, `C70_hkdf`, `C70_as_used`, `C70_mix_key_and_hash`, `C70_initialize`, `C70_nonce`,
  `Tables.C74_written`, `Tables.C74_message_type_expansion`, `Tables.C74_message_types_iff`, `C77_agrees`,
  `C79_as_drawn`, `C79_empty_pair`, `C79_before_or_after`, `C79_transport`, `C79_replaced`, `C79_reuse`,
  `C81_first_cut`, `C84_volley`, `Noise.C86_client_is_anonymous`, `Noise.C86_private_keys`, `Noise.C86_role`,
  `Noise.C86_clamped`, `C87_next_by_64`, `C87_next_by`, `Noise.C89_same_key_and_nonce`, `Noise.C89_deaf`,
  `C90_call`, `C90_wrap`, `Noise.C93_streamKey`, `C98_first`, `C98_outcome`, `C98_state`, `C99_first`,
  `C99_accepts_or_refuses`, `C99_nothing`, `C99_harmless`, `C100_certificates`, `C100_arrives`, `C100_fails`,
  `C100_all_or_error`, `C100_limit`, `C100_again`, `Noise.C101_run`, `Noise.C107_other_direction`,
  `Noise.C107_before`.
- `propext`: `C46_rekey`, `C46_remote_is_local`, `C46_clear_rekey`, `C47_top_bit`, `C55_new`, `C56_rekey`,
  `C64_printed`, `C65_is_empty`, `C65_key_unchecked`, `C65_clear`, `C65_pair_is_empty`,
  `Tables.C74_message_type_table`.
