# Which definition models which function

Generated from the comments of the model: for every function and macro of the sources outside of test modules, the
definitions of `lean/Verif/Model` (and `Spec`) whose comment cites its lines. Where several are listed the first is
usually the function itself, the others cite a line of it. The properties are in `properties.jsonl`, the decisions in
`DESIGN.md`.


## examples/noise_handshake.rs

| function | lines | model |
|---|---|---|
| `main` | 20-40 | Model/OpenPrograms.lean: `handshake`; Model/Programs.lean: `MinerAt`, `minerNext`, `Role` |
| `Pool<'a> :: new` | 53-62 | Model/Examples.lean: `Pool.new` |
| `Pool<'a> :: listen` | 65-84 | Model/Programs.lean: `PoolAt`, `poolNext`; Model/OpenPrograms.lean: `handshake` |
| `Pool<'a> :: handle_recv_bytes` | 86-110 | Model/Examples.lean: `Pool.handle`, `intoBuffer`; Model/Programs.lean: `Pool.certify`, `PoolAt`, `poolNext`; Model/OpenPrograms.lean: `handshake` |
| `Pool<'a> :: send_message` | 113-116 | Model/Examples.lean: `send`; Model/Programs.lean: `PoolAt`, `poolNext`; Model/OpenPrograms.lean: `handshake` |
| `Miner<'a> :: new` | 129-135 | Model/Examples.lean: `Miner.new`; Model/OpenPrograms.lean: `handshake` |
| `Miner<'a> :: listen` | 137-158 | Model/Examples.lean: `Miner.listen`; Model/Programs.lean: `MinerAt`, `minerNext`; Model/OpenPrograms.lean: `handshake` |
| `Miner<'a> :: handle_recv_bytes` | 160-182 | Model/Examples.lean: `Miner.handle`; Model/Programs.lean: `MinerAt`, `minerNext`; Model/OpenPrograms.lean: `handshake` |
| `Miner<'a> :: send_message` | 185-188 | Model/Examples.lean: `send`; Model/Programs.lean: `Miner.written`, `MinerAt`, `minerNext`; Model/OpenPrograms.lean: `handshake` |

## examples/setup_connection.rs

| function | lines | model |
|---|---|---|
| `main` | 15-42 | Model/OpenPrograms.lean: `setup`; Model/Programs.lean: `program`, `MinerAt`, `minerNext`, `Role` |
| `Pool<'a> :: new` | 55-60 | Model/Examples.lean: `requiresFixedVersion` |
| `Pool<'a> :: listen` | 63-82 | Model/Programs.lean: `PoolAt`, `poolNext`; Model/OpenPrograms.lean: `setup` |
| `Pool<'a> :: handle_recv_bytes` | 84-114 | Model/Examples.lean: `poolHandle`; Model/Programs.lean: `PoolAt`, `poolNext`; Model/OpenPrograms.lean: `setup` |
| `Miner<'a> :: new` | 124-126 | Model/OpenPrograms.lean: `setup` |
| `Miner<'a> :: listen` | 128-148 | Model/Programs.lean: `MinerAt`, `minerNext`; Model/OpenPrograms.lean: `setup` |
| `Miner<'a> :: send_message` | 150-155 | Model/Examples.lean: `minerSend`; Model/Programs.lean: `MinerAt`, `minerNext`; Model/OpenPrograms.lean: `setup` |
| `Miner<'a> :: handle_recv_bytes` | 157-169 | Model/Examples.lean: `minerHandle`; Model/Programs.lean: `MinerAt`, `minerNext`; Model/OpenPrograms.lean: `setup` |

## fuzz/src/bin/connection_encryptor.rs

| function | lines | model |
|---|---|---|
| `main` | 4-14 | Model/Fuzz.lean: `connectionEncryptor` |

## fuzz/src/bin/mining_messages.rs

| function | lines | model |
|---|---|---|
| `main` | 7-31 | Model/Fuzz.lean: `miningMessages` |

## fuzz/src/bin/network_frame.rs

| function | lines | model |
|---|---|---|
| `main` | 4-8 | Model/Fuzz.lean: `networkFrame` |

## fuzz/src/bin/noise.rs

| function | lines | model |
|---|---|---|
| `main` | 7-11 | Model/Fuzz.lean: `noise` |

## fuzz/src/bin/setup_connection.rs

| function | lines | model |
|---|---|---|
| `main` | 7-19 | Model/Fuzz.lean: `setupConnection` |

## stratumv2/benches/mining_benchmark.rs

| function | lines | model |
|---|---|---|
| `criterion_benchmark` | 10-39 | not modelled: a benchmark; it imports `stratumv2::parse`, which the library does not have (it is `codec` now) |

## stratumv2/nx-noise/src/error.rs

| function | lines | model |
|---|---|---|
| `std::fmt::Display for NoiseError :: fmt` | 23-45 | Model/ErrorTrait.lean: `NoiseError.display` |
| `Error for NoiseError :: source` | 49-51 | Model/ErrorTrait.lean: `ErrorRef.source` |

## stratumv2/nx-noise/src/macros.rs

| function | lines | model |
|---|---|---|
| `copy_slices!` | 5-9 | inlined where it is used (`copy_from_slice`) |

## stratumv2/nx-noise/src/noisesession.rs

| function | lines | model |
|---|---|---|
| `NoiseSession :: is_transport` | 47-49 | Model/Noise/Session.lean: `isTransport` |
| `NoiseSession :: clear_local_cipherstate` | 52-54 | Model/Noise/Session.lean: `clearLocal` |
| `NoiseSession :: clear_remote_cipherstate` | 57-59 | Model/Noise/Session.lean: `clearRemote` |
| `NoiseSession :: rekey_local_cipherstate` | 62-64 | Model/Noise/Session.lean: `rekeyLocal` |
| `NoiseSession :: rekey_remote_cipherstate` | 67-69 | Model/Noise/Session.lean: `rekeyRemote` |
| `NoiseSession :: end_session` | 72-79 | Model/Noise/Session.lean: `endSession` |
| `NoiseSession :: get_handshake_hash` | 82-87 | Model/Noise/Session.lean: `getHandshakeHash` |
| `NoiseSession :: get_message_count` | 90-92 | Model/Noise/Session.lean: `getMessageCount` |
| `NoiseSession :: set_ephemeral_keypair` | 95-97 | Model/Noise/Session.lean: `setEphemeralKeypair` |
| `NoiseSession :: get_remote_static_public_key` | 102-107 | Model/Noise/Session.lean: `getRemoteStaticPublicKey` |
| `NoiseSession :: init_session` | 114-136 | Model/Noise/Session.lean: `initSession` |
| `NoiseSession :: send_message` | 146-166 | Model/Noise/Build.lean: `sendMessage`, `count`; Model/Noise/Session.lean: `sendMessage`, `enterTransport`, `count` |
| `NoiseSession :: recv_message` | 180-202 | Model/Noise/Build.lean: `recvMessage`, `count`; Model/Noise/Session.lean: `recvMessage`, `enterTransport`, `count` |

## stratumv2/nx-noise/src/prims.rs

| function | lines | model |
|---|---|---|
| `encrypt` | 10-12 | `Prims.aeadSeal` (parameter), `Crypto.Aead.aeadSeal` |
| `decrypt` | 14-16 | `Prims.aeadOpen` (parameter), `Crypto.Aead.aeadOpen` |
| `hash` | 18-23 | `Prims.hash` (parameter), `Crypto.Blake2s.hash` |
| `hash_with_context` | 25-31 | Model/Noise/State.lean: `hashWithContext` |
| `hmac` | 33-48 | Model/Noise/State.lean: `hmac`, `hmacPad`; Model/Noise/Unused.lean: `hmacSlices`, `xorInto` |
| `hkdf` | 50-71 | Model/Noise/Unused.lean: `hkdfSlices`, `withCounter`; Model/Noise/State.lean: `hkdf2` |

## stratumv2/nx-noise/src/state.rs

| function | lines | model |
|---|---|---|
| `CipherState :: new` | 21-23 | Model/Noise/State.lean: `new` |
| `CipherState :: clear_key` | 25-27 | Model/Noise/State.lean: `clearKey` |
| `CipherState :: clear` | 29-32 | Model/Noise/State.lean: `new` |
| `CipherState :: from_key` | 34-37 | Model/Noise/State.lean: `fromKey` |
| `CipherState :: has_key` | 39-41 | Model/Noise/State.lean: `hasKey` |
| `CipherState :: set_nonce` | 44-46 | Model/Noise/Unused.lean: `setNonce` |
| `CipherState :: get_nonce` | 49-51 | Model/Noise/Unused.lean: `getNonce` |
| `CipherState :: encrypt_with_ad` | 53-57 | Model/Noise/Build.lean: `encryptWithAd`; Model/Noise/State.lean: `encryptWithAd` |
| `CipherState :: decrypt_with_ad` | 74-78 | Model/Noise/Build.lean: `decryptWithAd`; Model/Noise/State.lean: `decryptWithAd` |
| `CipherState :: rekey` | 98-106 | Model/Noise/State.lean: `rekey`, `rekeyNonce` |
| `CipherState :: write_message_regular` | 108-114 | Model/Noise/Build.lean: `writeMessageRegular`, `split`; Model/Noise/State.lean: `writeMessageRegular` |
| `CipherState :: read_message_regular` | 116-123 | Model/Noise/Build.lean: `readMessageRegular`, `split`; Model/Noise/State.lean: `readMessageRegular` |
| `SymmetricState :: clear` | 133-136 | Model/Noise/State.lean: `clear` |
| `SymmetricState :: initialize_symmetric` | 138-153 | Model/Noise/State.lean: `initializeSymmetric` |
| `SymmetricState :: mix_key` | 155-171 | Model/Noise/State.lean: `mixKey` |
| `SymmetricState :: mix_hash` | 173-175 | Model/Noise/State.lean: `mixHash` |
| `SymmetricState :: mix_key_and_hash` | 178-199 | Model/Noise/Unused.lean: `mixKeyAndHash` |
| `SymmetricState :: get_handshake_hash` | 202-204 | Model/Noise/Unused.lean: `getHandshakeHash` |
| `SymmetricState :: encrypt_and_hash` | 206-221 | Model/Noise/Build.lean: `encryptAndHash`, `split`; Model/Noise/State.lean: `encryptAndHash` |
| `SymmetricState :: decrypt_and_hash` | 223-233 | Model/Noise/Build.lean: `decryptAndHash`, `split`; Model/Noise/State.lean: `decryptAndHash` |
| `SymmetricState :: split` | 235-254 | Model/Noise/State.lean: `split` |
| `HandshakeState :: clear` | 267-272 | Model/Noise/State.lean: `clear` |
| `HandshakeState :: get_remote_static_public_key` | 274-276 | Model/Noise/Session.lean: `getRemoteStaticPublicKey` |
| `HandshakeState :: set_ephemeral_keypair` | 278-280 | Model/Noise/Session.lean: `setEphemeralKeypair` |
| `HandshakeState :: initialize_initiator` | 282-295 | Model/Noise/State.lean: `init`, `protocolName` |
| `HandshakeState :: initialize_responder` | 297-310 | Model/Noise/State.lean: `init`, `protocolName` |
| `HandshakeState :: write_message_a` | 311-326 | Model/Noise/State.lean: `writeMessageA` |
| `HandshakeState :: write_message_b` | 328-359 | Model/Noise/Build.lean: `writeMessageB`; Model/Noise/State.lean: `writeMessageB` |
| `HandshakeState :: read_message_a` | 361-373 | Model/Noise/State.lean: `readMessageA` |
| `HandshakeState :: read_message_b` | 375-399 | Model/Noise/Build.lean: `readMessageB`; Model/Noise/State.lean: `readMessageB` |

## stratumv2/nx-noise/src/types.rs

| function | lines | model |
|---|---|---|
| `decode_str_32` | 13-25 | Model/Error.lean: `NoiseError`; Model/Noise/Types.lean: `decodeStr32` |
| `Hash :: clear` | 32-34 | Model/Noise/Types.lean: `Key` |
| `Hash :: from_bytes` | 35-37 | Model/Noise/Types.lean: `Key` |
| `Hash :: as_bytes` | 38-40 | Model/Noise/Types.lean: `Key` |
| `Hash :: new` | 41-43 | Model/Noise/Types.lean: `Key` |
| `Key :: clear` | 51-53 | Model/Noise/Types.lean: `clearKey`, `Key` |
| `Key :: new` | 55-57 | Model/Noise/Types.lean: `Key` |
| `Key :: from_bytes` | 59-61 | Model/Noise/Types.lean: `Key` |
| `Key :: as_bytes` | 62-64 | Model/Noise/Types.lean: `Key` |
| `Key :: is_empty` | 87-89 | Model/Noise/Types.lean: `isEmptyKey` |
| `Key :: generate_public_key` | 91-96 | Model/Noise/Types.lean: `keyGeneratePublicKey` |
| `std::str::FromStr for Key :: from_str` | 117-120 | Model/Noise/Types.lean: `keyFromStr` |
| `Psk :: default` | 128-130 | Model/Noise/Types.lean: `Key` |
| `Psk :: clear` | 131-133 | Model/Noise/Types.lean: `clearKey`, `Key` |
| `Psk :: from_bytes` | 135-137 | Model/Noise/Types.lean: `Key` |
| `Psk :: as_bytes` | 140-142 | Model/Noise/Types.lean: `Key` |
| `Psk :: is_empty` | 165-167 | Model/Noise/Types.lean: `isEmptyKey` |
| `Clone for Psk :: clone` | 170-174 | Model/Noise/Types.lean: `Key` |
| `std::str::FromStr for Psk :: from_str` | 196-200 | Model/Noise/Types.lean: `keyFromStr` |
| `PrivateKey :: clear` | 208-210 | Model/Noise/Types.lean: `clearKey`, `Key` |
| `PrivateKey :: empty` | 212-214 | Model/Noise/Types.lean: `Key` |
| `PrivateKey :: from_bytes` | 216-218 | Model/Noise/Types.lean: `Key` |
| `PrivateKey :: from_hacl_secret_key` | 219-221 | Model/Noise/Types.lean: `Key` |
| `PrivateKey :: as_bytes` | 222-224 | Model/Noise/Types.lean: `Key` |
| `PrivateKey :: is_empty` | 247-249 | Model/Noise/Types.lean: `isEmptyKey` |
| `PrivateKey :: generate_public_key` | 251-258 | Model/Noise/Types.lean: `generatePublicKey` |
| `std::str::FromStr for PrivateKey :: from_str` | 280-283 | Model/Noise/Types.lean: `keyFromStr` |
| `PublicKey :: empty` | 292-294 | Model/Noise/Types.lean: `Key` |
| `PublicKey :: from_bytes` | 296-303 | Model/Noise/Types.lean: `publicKeyFromBytes` |
| `PublicKey :: clear` | 305-307 | Model/Noise/Types.lean: `clearKey` |
| `PublicKey :: from_hacl_public_key` | 308-310 | Model/Noise/Types.lean: `Key` |
| `PublicKey :: as_bytes` | 311-313 | Model/Noise/Types.lean: `Key` |
| `PublicKey :: is_empty` | 334-336 | Model/Noise/Types.lean: `isEmptyKey` |
| `std::str::FromStr for PublicKey :: from_str` | 359-362 | Model/Noise/Types.lean: `keyFromStr` |
| `Nonce :: new` | 370-372 | Model/Noise/Types.lean: `nonceValue` |
| `Nonce :: increment` | 373-375 | Model/Noise/Build.lean: `increment`; Model/Noise/Types.lean: `nonceIncrement` |
| `Nonce :: get_value` | 376-381 | Model/Noise/Types.lean: `nonceValue` |
| `Keypair :: clear` | 390-393 | Model/Noise/Types.lean: `clear` |
| `Keypair :: new_empty` | 395-400 | Model/Noise/Types.lean: `empty` |
| `Keypair :: default` | 402-409 | Model/Noise/Types.lean: `default` |
| `Keypair :: dh` | 410-414 | Model/Noise/Types.lean: `dh` |
| `Keypair :: is_empty` | 416-418 | Model/Noise/Types.lean: `isEmpty` |
| `Keypair :: from_key` | 421-427 | Model/Noise/Types.lean: `fromKey` |
| `Keypair :: from_private_key` | 430-432 | Model/Noise/Types.lean: `fromKey` |
| `Keypair :: get_public_key` | 434-436 | Model/Noise/Types.lean: `getPublicKey` |
| `public_key_validation_test` | 440-505 | a test: `Props/RepoTests.lean` |

## stratumv2/nx-noise/src/utils.rs

| function | lines | model |
|---|---|---|
| `from_slice_hashlen` | 6-11 | Model/Noise/Types.lean: `fromSliceHashlen` |
| `prep_nonce` | 12-16 | Model/Noise/Types.lean: `prepNonce` |

## stratumv2/src/codec/deserialize.rs

| function | lines | model |
|---|---|---|
| `Deserializable :: deserialize` | 5-7 | Model/Codec.lean: `Deserializable` |
| `deserialize` | 12-15 | Model/Codec.lean: `deserialize` |

## stratumv2/src/codec/frame.rs

| function | lines | model |
|---|---|---|
| `Message :: new` | 25-30 | the constructor of `Message` (Model/Frame.lean) |
| `Serializable for Message :: serialize` | 34-53 | Model/Frame.lean: `instance` |
| `Deserializable for Message :: deserialize` | 57-73 | Model/Frame.lean: `instance` |
| `Frameable: Deserializable + Serializable :: message_type` | 78-78 | Model/Frame.lean: `Frameable` |
| `frame` | 83-85 | Model/Frame.lean: `frame` |
| `unframe` | 89-101 | Model/Frame.lean: `unframe` |

## stratumv2/src/codec/parser.rs

| function | lines | model |
|---|---|---|
| `ByteParser<'a> :: new` | 12-14 | the constructor of `ByteParser` (Model/Codec.lean), cursor 0 |
| `ByteParser<'a> :: next_by` | 16-26 | Model/Codec.lean: `ByteParser.nextBy`; Model/Width.lean: `ByteParser.nextByWidth` |

## stratumv2/src/codec/serialize.rs

| function | lines | model |
|---|---|---|
| `Serializable :: serialize` | 7-7 | Model/Codec.lean: `Serializable` |
| `serialize` | 12-17 | Model/Codec.lean: `serialize` |

## stratumv2/src/common/channel_endpoint_changed.rs

| function | lines | model |
|---|---|---|
| `ChannelEndpointChanged :: new` | 22-24 | Model/Messages.lean: `ChannelEndpointChanged.new` |

## stratumv2/src/common/setup_connection.rs

| function | lines | model |
|---|---|---|
| `From<&Protocol> for u8 :: from` | 33-40 | Model/Messages.lean: `Protocol.toU8` |
| `From<Protocol> for u8 :: from` | 44-46 | `Protocol.toU8` |
| `TryFrom<u8> for Protocol :: try_from` | 52-63 | Model/Messages.lean: `Protocol.tryFrom` |
| `Serializable for Protocol :: serialize` | 67-69 | Model/Messages.lean: `instance` |
| `Deserializable for Protocol :: deserialize` | 73-75 | Model/Messages.lean: `instance` |
| `SetupConnection :: new_mining` | 109-131 | Model/Messages.lean: `SetupConnection.newMining` |
| `SetupConnection :: new_job_negotation` | 153-177 | Model/Messages.lean: `SetupConnection.newJobNegotiation` |
| `Serializable for SetupConnection :: serialize` | 181-197 | Model/Messages.lean: `instance` |
| `Deserializable for SetupConnection :: deserialize` | 201-220 | Model/Messages.lean: `instance` |
| `Frameable for SetupConnection :: message_type` | 224-226 | Model/Messages.lean: `instance` |

## stratumv2/src/macro_message/message.rs

| function | lines | model |
|---|---|---|
| `impl_message!` | 11-54 | Model/Macro.lean: `(d`, `Msg`, `Fields`, `serFields`, `deserFields`; Model/Messages.lean: `{all`, `instance`, `{kind`, `OpenStandardMiningChannel.rustEq`, `OpenExtendedMiningChannel.rustEq`, `ChannelKind.messageType` … |
| `Serializable for $struct_name :: serialize` | 31-37 | Model/Macro.lean: `serFields`, `(d`; Model/Messages.lean: `{all`, `instance`, `{kind` |
| `Deserializable for $struct_name :: deserialize` | 41-45 | Model/Macro.lean: `deserFields`, `(d`; Model/Messages.lean: `{all`, `instance`, `{kind` |
| `Frameable for $struct_name :: message_type` | 49-51 | Model/Messages.lean: `ChannelKind.messageType`, `{all`, `instance`, `{kind`; Model/Macro.lean: `(d` |

## stratumv2/src/macro_message/setup_connection.rs

| function | lines | model |
|---|---|---|
| `impl_setup_connection!` | 14-151 | Model/Messages.lean: `SetupConnectionMsg`, `{all`, `SetupConnectionMsg.new` |
| `SetupConnection :: new` | 104-148 | Model/Messages.lean: `SetupConnectionMsg.new` |

## stratumv2/src/macro_message/setup_connection_error.rs

| function | lines | model |
|---|---|---|
| `impl_setup_connection_error!` | 12-69 | Model/Messages.lean: `SetupConnectionError`, `{all`, `SetupConnectionError.new` |
| `SetupConnectionError :: new` | 53-66 | Model/Messages.lean: `SetupConnectionError.new` |

## stratumv2/src/macro_message/setup_connection_success.rs

| function | lines | model |
|---|---|---|
| `impl_setup_connection_success!` | 10-54 | Model/Messages.lean: `SetupConnectionSuccess`, `{all`, `SetupConnectionSuccess.new` |
| `SetupConnectionSuccess :: new` | 46-51 | Model/Messages.lean: `SetupConnectionSuccess.new` |

## stratumv2/src/mining/open_extended_mining_channel.rs

| function | lines | model |
|---|---|---|
| `OpenExtendedMiningChannel :: new` | 38-52 | Model/Messages.lean: `OpenExtendedMiningChannel.new` |

## stratumv2/src/mining/open_extended_mining_channel_success.rs

| function | lines | model |
|---|---|---|
| `OpenExtendedMiningChannelSuccess :: new` | 31-45 | Model/Messages.lean: `OpenExtendedMiningChannelSuccess.new` |

## stratumv2/src/mining/open_mining_channel_error.rs

| function | lines | model |
|---|---|---|
| `impl_open_mining_channel_error!` | 27-53 | Model/Messages.lean: `OpenMiningChannelError`, `{kind`, `OpenMiningChannelError.new` |
| `$struct_name :: new` | 45-50 | Model/Messages.lean: `OpenMiningChannelError.new` |

## stratumv2/src/mining/open_standard_mining_channel.rs

| function | lines | model |
|---|---|---|
| `OpenStandardMiningChannel :: new` | 35-47 | Model/Messages.lean: `OpenStandardMiningChannel.new` |

## stratumv2/src/mining/open_standard_mining_channel_success.rs

| function | lines | model |
|---|---|---|
| `OpenStandardMiningChannelSuccess :: new` | 30-44 | Model/Messages.lean: `OpenStandardMiningChannelSuccess.new` |

## stratumv2/src/mining/update_channel.rs

| function | lines | model |
|---|---|---|
| `UpdateChannel :: new` | 25-35 | Model/Messages.lean: `UpdateChannel.new` |

## stratumv2/src/network/channel.rs

| function | lines | model |
|---|---|---|
| `new_channel_id` | 12-14 | Model/Network.lean: `newChannelId`; Model/Rand.lean: `newChannelId` |
| `ChannelManager :: new` | 40-44 | Model/Config.lean: `ChannelManager.new` |

## stratumv2/src/network/config.rs

| function | lines | model |
|---|---|---|
| `NoiseConfig :: new` | 27-32 | Model/Config.lean: `NoiseConfig.new` |
| `NetworkConfig :: new` | 50-55 | Model/Config.lean: `NetworkConfig.new` |
| `ServerConfig :: new` | 65-67 | Model/Config.lean: `ServerConfig.new` |

## stratumv2/src/network/encryptor.rs

| function | lines | model |
|---|---|---|
| `Encryptor :: is_handshake_complete` | 11-11 | declaration in a trait, no code |
| `Encryptor :: recv_handshake` | 12-12 | declaration in a trait, no code |
| `Encryptor :: init_handshake` | 13-13 | declaration in a trait, no code |
| `Encryptor :: encrypt_message` | 14-14 | declaration in a trait, no code |
| `Encryptor :: decrypt_message` | 15-15 | declaration in a trait, no code |
| `ConnectionEncryptor :: new_inbound` | 27-31 | Model/Network.lean: `newInbound` |
| `ConnectionEncryptor :: new_outbound` | 35-39 | Model/Network.lean: `newOutbound` |
| `ConnectionEncryptor :: get_remote_pubkey` | 43-45 | Model/Network.lean: `getRemotePubkey` |
| `Encryptor for ConnectionEncryptor :: is_handshake_complete` | 51-53 | Model/Network.lean: `isHandshakeComplete` |
| `Encryptor for ConnectionEncryptor :: recv_handshake` | 58-63 | Model/Network.lean: `recvHandshake` |
| `Encryptor for ConnectionEncryptor :: init_handshake` | 67-72 | Model/Network.lean: `initHandshake` |
| `Encryptor for ConnectionEncryptor :: encrypt_message` | 76-78 | Model/Network.lean: `encryptMessage` |
| `Encryptor for ConnectionEncryptor :: decrypt_message` | 82-84 | Model/Network.lean: `decryptMessage` |

## stratumv2/src/network/message_handler.rs

| function | lines | model |
|---|---|---|
| `NewConnReceiver<E: Encryptor> :: handle_new_conn` | 11-16 | declaration in a trait, no code |
| `MiningInitiator :: handle_mining_conn_success` | 23-23 | declaration in a trait, no code |
| `MiningInitiator :: handle_mining_conn_error` | 24-24 | declaration in a trait, no code |
| `JobNegotiationInitiator :: handle_jn_conn_success` | 31-31 | declaration in a trait, no code |
| `JobNegotiationInitiator :: handle_jn_conn_error` | 32-32 | declaration in a trait, no code |

## stratumv2/src/network/peer.rs

| function | lines | model |
|---|---|---|
| `Peer<E> :: new` | 32-38 | Model/Network.lean: `Sys.start` |
| `Peer<E> :: get_pending_msgs` | 42-46 | Model/Network.lean: `Call.leaves`, `Call.result` |

## stratumv2/src/noise/certificate_format.rs

| function | lines | model |
|---|---|---|
| `CertificateFormat<'a> :: new` | 25-40 | Model/Certificate.lean: `CertificateFormat.new` |
| `CertificateFormat<'a> :: verify` | 45-58 | Model/Certificate.lean: `CertificateFormat.verify` |
| `Serializable for CertificateFormat<'_> :: serialize` | 66-77 | Model/Certificate.lean: `instance` |

## stratumv2/src/noise/noise_session.rs

| function | lines | model |
|---|---|---|
| `new_noise_responder` | 10-17 | Model/Noise/Session.lean: `newNoiseResponder` |
| `new_noise_initiator` | 20-22 | Model/Noise/Session.lean: `newNoiseInitiator` |

## stratumv2/src/noise/signature_noise_message.rs

| function | lines | model |
|---|---|---|
| `SignatureNoiseMessage :: new` | 25-32 | Model/Certificate.lean: `SignatureNoiseMessage.new` |
| `SignatureNoiseMessage :: from_auth_key` | 37-47 | Model/Certificate.lean: `SignatureNoiseMessage.fromAuthKey` |
| `Serializable for SignatureNoiseMessage :: serialize` | 51-60 | Model/Certificate.lean: `instance` |
| `Deserializable for SignatureNoiseMessage :: deserialize` | 64-78 | Model/Certificate.lean: `instance` |

## stratumv2/src/noise/signed_certificate.rs

| function | lines | model |
|---|---|---|
| `SignedCertificate<'a> :: new` | 20-39 | Model/Certificate.lean: `SignedCertificate.new` |
| `Serializable for SignedCertificate<'_> :: serialize` | 42-51 | Model/Certificate.lean: `instance` |
| `authority_sign_cert` | 57-65 | Model/Certificate.lean: `authoritySignCert` |

## stratumv2/src/noise/types.rs

| function | lines | model |
|---|---|---|
| `generate_authority_keypair` | 11-13 | Model/Error.lean: `NoiseError`; Model/Noise/Types.lean: `decodeStr32` |
| `Serializable for StaticPublicKey :: serialize` | 27-32 | Model/Certificate.lean: `instance`; Model/Noise/Types.lean: `Key` |
| `Serializable for Signature :: serialize` | 53-58 | Model/Certificate.lean: `instance`; Model/Noise/Types.lean: `clearKey`, `Key` |
| `Deserializable for Signature :: deserialize` | 62-65 | Model/Certificate.lean: `instance`; Model/Noise/Types.lean: `Key` |

## stratumv2/src/types/bytes.rs

| function | lines | model |
|---|---|---|
| `impl_sized_B0!` | 7-85 | Model/Types.lean: `B0.new`, `{L`, `B0`, `LengthType`; Model/Conversions.lean: `B0.eqVec`, `B0.vecEq`, `B0.toVec`; Model/Messages.lean: `instance` |
| `$type :: new` | 24-37 | Model/Types.lean: `B0.new`, `LengthType` |
| `PartialEq<Vec<u8>> for $type :: eq` | 42-44 | Model/Conversions.lean: `B0.eqVec` |
| `PartialEq<$type> for Vec<u8> :: eq` | 49-51 | Model/Conversions.lean: `B0.vecEq` |
| `From<$type> for Vec<u8> :: from` | 56-58 | Model/Conversions.lean: `B0.toVec`; Model/Messages.lean: `instance` |
| `Deserializable for $type :: deserialize` | 63-70 | Model/Types.lean: `{L`, `LengthType` |
| `Serializable for $type :: serialize` | 75-82 | Model/Types.lean: `{L` |

## stratumv2/src/types/error_code.rs

| function | lines | model |
|---|---|---|
| `impl_error_code_enum!` | 14-85 | Model/Tables.lean: `(d`, `fromStr`, `CodeDecl`, `toStr`; Model/Types.lean: `ErrorCode`, `ErrorCode.toStr0`, `ErrorCode.deser`, `ErrorCode.ser`; Model/Messages.lean: `instance` |
| `fmt::Display for $name :: fmt` | 19-23 | Model/Tables.lean: `CodeDecl`, `(d`; Model/Types.lean: `ErrorCode` |
| `FromStr for $name :: from_str` | 29-34 | Model/Tables.lean: `fromStr`, `(d`; Model/Types.lean: `ErrorCode` |
| `TryFrom<String> for $name :: try_from` | 40-42 | Model/Types.lean: `ErrorCode.deser`, `ErrorCode`; Model/Tables.lean: `(d` |
| `TryFrom<STR0_255> for $name :: try_from` | 48-50 | Model/Types.lean: `ErrorCode.deser`, `ErrorCode`; Model/Tables.lean: `(d` |
| `From<&$name> for String :: from` | 54-58 | Model/Tables.lean: `CodeDecl`, `toStr`, `(d`; Model/Types.lean: `ErrorCode` |
| `From<&$name> for STR0_255 :: from` | 62-68 | Model/Types.lean: `ErrorCode.toStr0`, `ErrorCode`; Model/Tables.lean: `(d` |
| `Serializable for $name :: serialize` | 72-74 | Model/Messages.lean: `instance`; Model/Tables.lean: `(d`; Model/Types.lean: `ErrorCode.ser`, `ErrorCode` |
| `Deserializable for $name :: deserialize` | 78-82 | Model/Messages.lean: `instance`; Model/Tables.lean: `(d`; Model/Types.lean: `ErrorCode.deser`, `ErrorCode` |

## stratumv2/src/types/fixed.rs

| function | lines | model |
|---|---|---|
| `U24 :: new` | 17-19 | Model/Types.lean: `U24.new` |
| `PartialEq<u32> for U24 :: eq` | 23-25 | Model/Conversions.lean: `U24.eqU32` |
| `PartialEq<U24> for u32 :: eq` | 29-31 | Model/Conversions.lean: `U24.u32Eq` |
| `From<U24> for u32 :: from` | 35-37 | Model/Conversions.lean: `U24.toU32` |
| `TryFrom<u32> for U24 :: try_from` | 43-45 | Model/Types.lean: `U24.new` |
| `From<U24> for usize :: from` | 49-51 | Model/Conversions.lean: `U24.toUsize`; Model/Types.lean: `instance` |
| `TryFrom<usize> for U24 :: try_from` | 57-65 | Model/Types.lean: `U24.tryFromUsize`, `instance` |
| `Deserializable for U24 :: deserialize` | 69-75 | Model/Types.lean: `instance` |
| `Serializable for U24 :: serialize` | 79-82 | Model/Types.lean: `instance` |
| `Deserializable for U256 :: deserialize` | 91-95 | Model/Types.lean: `instance` |
| `Serializable for U256 :: serialize` | 99-102 | Model/Types.lean: `instance` |
| `PartialEq<[u8; 32]> for U256 :: eq` | 106-108 | Model/Conversions.lean: `U256.eqArray` |
| `PartialEq<U256> for [u8; 32] :: eq` | 112-114 | Model/Conversions.lean: `U256.arrayEq` |
| `From<U256> for [u8; 32] :: from` | 118-120 | Model/Conversions.lean: `U256.toArray` |
| `From<[u8; 32]> for U256 :: from` | 124-126 | Model/Conversions.lean: `U256.fromArray` |

## stratumv2/src/types/flags.rs

| function | lines | model |
|---|---|---|
| `impl_bitflags_serde!` | 9-29 | Model/Types.lean: `{all` |
| `Serializable for $name :: serialize` | 18-20 | Model/Types.lean: `{all` |
| `Deserializable for $name :: deserialize` | 24-26 | Model/Types.lean: `{all` |

## stratumv2/src/types/message_type.rs

| function | lines | model |
|---|---|---|
| `impl_enum_message_types!` | 43-72 | Model/Tables.lean: `TypeDecl.row`, `TypeDecl.new`, `TypeDecl.extType`, `TypeDecl.msgType`, `TypeDecl.channelBit`, `TypeDecl`; Model/Frame.lean: `new`, `extType`, `msgType`, `channelBit` |
| `$type :: new` | 46-51 | Model/Frame.lean: `new`; Model/Tables.lean: `TypeDecl.new` |
| `$type :: ext_type` | 53-57 | Model/Frame.lean: `extType`; Model/Tables.lean: `TypeDecl.extType`, `TypeDecl.row` |
| `$type :: msg_type` | 59-63 | Model/Frame.lean: `msgType`; Model/Tables.lean: `TypeDecl.msgType`, `TypeDecl.row` |
| `$type :: channel_bit` | 65-69 | Model/Frame.lean: `channelBit`; Model/Tables.lean: `TypeDecl.channelBit`, `TypeDecl.row` |

## stratumv2/src/types/primitives.rs

| function | lines | model |
|---|---|---|
| `Serializable for bool :: serialize` | 8-12 | Model/Types.lean: `instance` |
| `Serializable for u8 :: serialize` | 16-20 | Model/Types.lean: `instance` |
| `Serializable for u16 :: serialize` | 24-28 | Model/Types.lean: `instance` |
| `Serializable for u32 :: serialize` | 32-36 | Model/Types.lean: `instance` |
| `Serializable for f32 :: serialize` | 40-44 | Model/Types.lean: `instance` |
| `Deserializable for bool :: deserialize` | 54-59 | Model/Types.lean: `instance` |
| `Deserializable for u8 :: deserialize` | 63-68 | Model/Types.lean: `instance` |
| `Deserializable for u16 :: deserialize` | 72-77 | Model/Types.lean: `instance` |
| `Deserializable for u32 :: deserialize` | 81-86 | Model/Types.lean: `instance` |
| `Deserializable for f32 :: deserialize` | 90-95 | Model/Types.lean: `instance` |

## stratumv2/src/types/strings.rs

| function | lines | model |
|---|---|---|
| `impl_sized_STR0!` | 6-83 | Model/Types.lean: `Str0.new`, `{max`, `Str0`; Model/Conversions.lean: `Str0.eqString`, `Str0.stringEq`, `Str0.toString`; Model/Messages.lean: `{all` |
| `$type :: new` | 19-32 | Model/Types.lean: `Str0.new` |
| `PartialEq<String> for $type :: eq` | 37-39 | Model/Conversions.lean: `Str0.eqString` |
| `PartialEq<$type> for String :: eq` | 44-46 | Model/Conversions.lean: `Str0.stringEq` |
| `From<$type> for String :: from` | 51-53 | Model/Conversions.lean: `Str0.toString`; Model/Messages.lean: `{all` |
| `Deserializable for $type :: deserialize` | 59-68 | Model/Types.lean: `{max` |
| `Serializable for $type :: serialize` | 73-80 | Model/Types.lean: `{max` |

## stratumv2/src/types/unix_timestamp.rs

| function | lines | model |
|---|---|---|
| `system_unix_time_to_u32` | 5-9 | Model/Certificate.lean: `systemUnixTimeToU32` |
| `unix_u32_now` | 12-14 | Model/Certificate.lean: `unixU32Now` |
