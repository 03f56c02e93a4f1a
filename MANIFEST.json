{
 "claims": [
  {
   "property": "C01",
   "status": "proved",
   "theorems": [
    "SV2.C01_bool",
    "SV2.C01_u8",
    "SV2.C01_u16",
    "SV2.C01_u32",
    "SV2.C01_f32",
    "SV2.C01_bool_any_byte"
   ],
   "note": ""
  },
  {
   "property": "C02",
   "status": "proved",
   "theorems": [
    "SV2.C02_new",
    "SV2.C02_roundtrip",
    "SV2.C02_any_three_bytes",
    "SV2.C02_out_of_range_truncated"
   ],
   "note": ""
  },
  {
   "property": "C03",
   "status": "proved",
   "theorems": [
    "SV2.C03_u256",
    "SV2.C03_any_32_bytes",
    "SV2.C03_short"
   ],
   "note": ""
  },
  {
   "property": "C04",
   "status": "proved",
   "theorems": [
    "SV2.C04_new",
    "SV2.C04_limits",
    "SV2.C04_roundtrip",
    "SV2.C04_decode",
    "SV2.C04_decode_empty"
   ],
   "note": ""
  },
  {
   "property": "C05",
   "status": "proved",
   "theorems": [
    "SV2.C05_new",
    "SV2.C05_roundtrip",
    "SV2.C05_decode",
    "SV2.C05_limits",
    "SV2.C05_sizes"
   ],
   "note": ""
  },
  {
   "property": "C06",
   "status": "proved",
   "theorems": [
    "SV2.C06_flags",
    "SV2.C06_roundtrip"
   ],
   "note": ""
  },
  {
   "property": "C07",
   "status": "proved",
   "theorems": [
    "SV2.C07_setup",
    "SV2.C07_open"
   ],
   "note": ""
  },
  {
   "property": "C08",
   "status": "proved",
   "theorems": [
    "SV2.C08_table",
    "SV2.C08_getters"
   ],
   "note": ""
  },
  {
   "property": "C09",
   "status": "proved",
   "theorems": [
    "SV2.C09_next_by",
    "SV2.C09_next_by_release"
   ],
   "note": ""
  },
  {
   "property": "C10",
   "status": "proved",
   "theorems": [
    "SV2.C10_primitives",
    "SV2.C10_strings_bytes_flags_codes",
    "SV2.C10_messages"
   ],
   "note": ""
  },
  {
   "property": "C11",
   "status": "proved",
   "theorems": [
    "SV2.C11_roundtrip"
   ],
   "note": ""
  },
  {
   "property": "C12",
   "status": "proved",
   "theorems": [
    "SV2.C12_canonical",
    "SV2.C12_canonical_frame",
    "SV2.C12_accepted_is_built"
   ],
   "note": ""
  },
  {
   "property": "C13",
   "status": "proved",
   "theorems": [
    "SV2.C13_truncation",
    "SV2.C13_truncation_frame"
   ],
   "note": ""
  },
  {
   "property": "C14",
   "status": "proved",
   "theorems": [
    "SV2.C14_count"
   ],
   "note": ""
  },
  {
   "property": "C15",
   "status": "proved",
   "theorems": [
    "SV2.C15_short_writes_ignored",
    "SV2.C15_count_independent_of_writer",
    "SV2.C15_frame_slice"
   ],
   "note": ""
  },
  {
   "property": "C16",
   "status": "proved",
   "theorems": [
    "SV2.C16_layout"
   ],
   "note": ""
  },
  {
   "property": "C17",
   "status": "proved",
   "theorems": [
    "SV2.C17_refused",
    "SV2.C17_wraps"
   ],
   "note": ""
  },
  {
   "property": "C18",
   "status": "proved",
   "theorems": [
    "SV2.C18_roundtrip"
   ],
   "note": ""
  },
  {
   "property": "C19",
   "status": "proved",
   "theorems": [
    "SV2.C19_decision_table"
   ],
   "note": ""
  },
  {
   "property": "C20",
   "status": "proved",
   "theorems": [
    "SV2.C20_stream_exists",
    "SV2.C20_stream",
    "SV2.C20_reading_unique",
    "SV2.C20_injective",
    "SV2.C20_cut"
   ],
   "note": ""
  },
  {
   "property": "C21",
   "status": "proved",
   "theorems": [
    "SV2.C21_frames_back",
    "SV2.C21_types"
   ],
   "note": ""
  },
  {
   "property": "C22",
   "status": "proved",
   "theorems": [
    "SV2.C22_unframe"
   ],
   "note": ""
  },
  {
   "property": "C23",
   "status": "proved",
   "theorems": [
    "SV2.C23_new_iff",
    "SV2.C23_new_fields",
    "SV2.C23_enum",
    "SV2.C23_new_errors"
   ],
   "note": ""
  },
  {
   "property": "C24",
   "status": "proved",
   "theorems": [
    "SV2.C24_accepted_valid",
    "SV2.C24_empty_version_range_accepted"
   ],
   "note": ""
  },
  {
   "property": "C25",
   "status": "proved",
   "theorems": [
    "SV2.C25_dispatch",
    "SV2.C25_other_protocols",
    "SV2.C25_variants_disjoint"
   ],
   "note": ""
  },
  {
   "property": "C26",
   "status": "proved",
   "theorems": [
    "SV2.C26_new",
    "SV2.C26_wire",
    "SV2.C26_wire_refused"
   ],
   "note": ""
  },
  {
   "property": "C27",
   "status": "proved",
   "theorems": [
    "SV2.C27_sizes",
    "SV2.C27_fits"
   ],
   "note": ""
  },
  {
   "property": "C28",
   "status": "proved",
   "theorems": [
    "SV2.C28_equal",
    "SV2.C28_messages_equal",
    "SV2.C28_update",
    "SV2.C28_open_standard",
    "SV2.C28_open_extended"
   ],
   "note": ""
  },
  {
   "property": "C29",
   "status": "proved",
   "theorems": [
    "SV2.C29_struct_framed_enum_unframed",
    "SV2.C29_confusion_accepted"
   ],
   "note": ""
  },
  {
   "property": "C30",
   "status": "proved",
   "theorems": [
    "SV2.C30_new_iff",
    "SV2.C30_new_refused"
   ],
   "note": ""
  },
  {
   "property": "C31",
   "status": "proved",
   "theorems": [
    "SV2.C31_codec",
    "SV2.C31_decision",
    "SV2.C31_total"
   ],
   "note": ""
  },
  {
   "property": "C32",
   "status": "proved",
   "theorems": [
    "SV2.C32_issue",
    "SV2.C32_new",
    "SV2.C32_honest"
   ],
   "note": ""
  },
  {
   "property": "C33",
   "status": "proved",
   "theorems": [
    "SV2.C33_injective",
    "SV2.C33_signed_or_forged"
   ],
   "note": ""
  },
  {
   "property": "C34",
   "status": "proved",
   "theorems": [
    "SV2.C34_unexpired",
    "SV2.C34_not_yet_valid_accepted",
    "SV2.C34_expired_accepted"
   ],
   "note": ""
  },
  {
   "property": "C35",
   "status": "proved",
   "theorems": [
    "SV2.C35_value",
    "SV2.C35_exact_monotone",
    "SV2.C35_not_monotone"
   ],
   "note": ""
  },
  {
   "property": "C36",
   "status": "proved",
   "theorems": [
    "SV2.C36_phases",
    "SV2.C36_count",
    "SV2.C36_never_left"
   ],
   "note": ""
  },
  {
   "property": "C37",
   "status": "proved",
   "theorems": [
    "SV2.C37_refused",
    "SV2.C37_transport",
    "SV2.C37_length_kept"
   ],
   "note": ""
  },
  {
   "property": "C38",
   "status": "proved",
   "theorems": [
    "SV2.C38_handshake",
    "SV2.C38_short_first_message",
    "SV2.C38_long_second_message"
   ],
   "note": ""
  },
  {
   "property": "C39",
   "status": "proved",
   "theorems": [
    "SV2.C39_fifo",
    "SV2.C39_send"
   ],
   "note": ""
  },
  {
   "property": "C40",
   "status": "proved",
   "theorems": [
    "SV2.C40_prefix_or_forged",
    "SV2.C40_no_panic"
   ],
   "note": ""
  },
  {
   "property": "C41",
   "status": "proved",
   "theorems": [
    "SV2.C41_nonces",
    "SV2.C41_distinct",
    "SV2.C41_exhausted",
    "SV2.C41_exhausted_recv",
    "SV2.C41_directions_differ"
   ],
   "note": ""
  },
  {
   "property": "C42",
   "status": "proved",
   "theorems": [
    "SV2.C42_transport",
    "SV2.C42_rejects_ignored",
    "SV2.C42_send",
    "SV2.C42_handshake_state",
    "SV2.C42_handshake_broken"
   ],
   "note": ""
  },
  {
   "property": "C43",
   "status": "proved",
   "theorems": [
    "SV2.C43_send",
    "SV2.C43_recv_panics_iff",
    "SV2.C43_attack"
   ],
   "note": ""
  },
  {
   "property": "C44",
   "status": "proved",
   "theorems": [
    "SV2.C44_hash",
    "SV2.C44_binding"
   ],
   "note": ""
  },
  {
   "property": "C45",
   "status": "proved",
   "theorems": [
    "SV2.C45_accepted_iff",
    "SV2.C45_no_receive",
    "SV2.C45_alternating",
    "SV2.C45_ignored_failure",
    "SV2.C45_roles_not_enforced"
   ],
   "note": ""
  },
  {
   "property": "C46",
   "status": "proved",
   "theorems": [
    "SV2.C46_drained",
    "SV2.C46_rekey",
    "SV2.C46_remote_is_local",
    "SV2.C46_clear_rekey",
    "SV2.C46_one_sided"
   ],
   "note": ""
  },
  {
   "property": "C47",
   "status": "proved",
   "theorems": [
    "SV2.C47_from_bytes",
    "SV2.C47_receive",
    "SV2.C47_remote_static",
    "SV2.C47_low_order",
    "SV2.C47_top_bit",
    "SV2.C47_complete",
    "SV2.C47_accepted",
    "SV2.C51_low_order"
   ],
   "note": ""
  },
  {
   "property": "C48",
   "status": "proved",
   "theorems": [
    "SV2.C48_erased",
    "SV2.C48_ephemeral",
    "SV2.C48_end_session",
    "SV2.C48_not_in_handshake"
   ],
   "note": ""
  },
  {
   "property": "C49",
   "status": "proved",
   "theorems": [
    "SV2.C49_tag_stays",
    "SV2.C49_nonzero"
   ],
   "note": ""
  },
  {
   "property": "C50",
   "status": "proved",
   "theorems": [
    "SV2.C50_layout",
    "SV2.C50_injective",
    "SV2.C50_not_rekey"
   ],
   "note": ""
  },
  {
   "property": "C51",
   "status": "proved",
   "theorems": [
    "SV2.C51_from_str",
    "SV2.C51_otherwise",
    "SV2.C51_length",
    "SV2.C51_every_key",
    "SV2.C51_low_order"
   ],
   "note": ""
  },
  {
   "property": "C52",
   "status": "proved",
   "theorems": [
    "SV2.C52_conservation",
    "SV2.C52_program_order",
    "SV2.C52_exclusive",
    "SV2.C52_progress",
    "SV2.C52_can_finish",
    "SV2.C52_fair",
    "SV2.C52_no_panic",
    "SV2.C52_complete",
    "SV2.C52_poisoned"
   ],
   "note": ""
  },
  {
   "property": "C53",
   "status": "proved",
   "theorems": [
    "SV2.Rand.C53_unbiased",
    "SV2.Rand.C53_words",
    "SV2.Rand.C53_one_word",
    "SV2.Rand.C53_repeats",
    "SV2.C53_range",
    "SV2.C53_injective",
    "SV2.C53_not_unique"
   ],
   "note": ""
  },
  {
   "property": "C54",
   "status": "proved",
   "theorems": [
    "SV2.C54_handshake",
    "SV2.C54_delivered",
    "SV2.C54_lost",
    "SV2.C54_all_lost",
    "SV2.C54_stubs"
   ],
   "note": ""
  },
  {
   "property": "C55",
   "status": "proved",
   "theorems": [
    "SV2.C55_new"
   ],
   "note": ""
  },
  {
   "property": "C56",
   "status": "proved",
   "theorems": [
    "SV2.C56_rekey",
    "SV2.C56_deviates",
    "SV2.C56_rfc"
   ],
   "note": ""
  },
  {
   "property": "C57",
   "status": "proved",
   "theorems": [
    "SV2.C57_panics_iff",
    "SV2.C57_fresh",
    "SV2.C57_remote_crash"
   ],
   "note": ""
  },
  {
   "property": "C58",
   "status": "proved",
   "theorems": [
    "SV2.C58_honest",
    "SV2.C58_authenticated",
    "SV2.C58_empty_connection"
   ],
   "note": ""
  },
  {
   "property": "C59",
   "status": "proved",
   "theorems": [
    "SV2.C59_exchange",
    "SV2.C59_too_long",
    "SV2.C59_too_long_exists",
    "SV2.C59_job_negotiation",
    "SV2.C59_reply_only_to_valid",
    "SV2.C59_garbage",
    "SV2.C59_others_ignored",
    "SV2.C59_miner"
   ],
   "note": ""
  },
  {
   "property": "C60",
   "status": "proved",
   "theorems": [
    "SV2.C60_str",
    "SV2.C60_bytes",
    "SV2.C60_injection"
   ],
   "note": ""
  },
  {
   "property": "C61",
   "status": "proved",
   "theorems": [
    "SV2.C61_str",
    "SV2.C61_str_not_transitive",
    "SV2.C61_bytes",
    "SV2.C61_u24",
    "SV2.C61_u256"
   ],
   "note": ""
  },
  {
   "property": "C62",
   "status": "proved",
   "theorems": [
    "SV2.C62_safe_after_success",
    "SV2.C62_panic",
    "SV2.C62_wedged"
   ],
   "note": ""
  },
  {
   "property": "C63",
   "status": "proved",
   "theorems": [
    "SV2.C63_noise_endless",
    "SV2.C63_ends_iff",
    "SV2.C63_encryptor"
   ],
   "note": ""
  },
  {
   "property": "C64",
   "status": "proved",
   "theorems": [
    "SV2.C64_noise",
    "SV2.C64_library",
    "SV2.C64_printed"
   ],
   "note": ""
  },
  {
   "property": "C65",
   "status": "proved",
   "theorems": [
    "SV2.C65_is_empty",
    "SV2.C65_from_key",
    "SV2.C65_key_unchecked",
    "SV2.C65_clear",
    "SV2.C65_pair_is_empty"
   ],
   "note": ""
  },
  {
   "property": "C66",
   "status": "proved",
   "theorems": [
    "SV2.C66_open_requests",
    "SV2.C66_open_answers",
    "SV2.C66_total",
    "SV2.C66_setup_enum"
   ],
   "note": ""
  },
  {
   "property": "C67",
   "status": "proved",
   "theorems": [
    "SV2.C67_mining_setup",
    "SV2.C67_mining_success",
    "SV2.C67_job_negotiation",
    "SV2.C67_contains",
    "SV2.C67_all_values"
   ],
   "note": ""
  },
  {
   "property": "C68",
   "status": "proved",
   "theorems": [
    "SV2.C68_vectors",
    "SV2.C68_laws",
    "SV2.C68_handshake",
    "SV2.C68_transport",
    "SV2.C68_initiator"
   ],
   "note": ""
  },
  {
   "property": "C69",
   "status": "proved",
   "theorems": [
    "SV2.C69_zero",
    "SV2.C69_keys",
    "SV2.C69_initiator",
    "SV2.C69_responder"
   ],
   "note": ""
  },
  {
   "property": "C70",
   "status": "proved",
   "theorems": [
    "SV2.C70_hmac",
    "SV2.C70_hkdf",
    "SV2.C70_as_used",
    "SV2.C70_mix_key_and_hash",
    "SV2.C70_initialize",
    "SV2.C70_nonce"
   ],
   "note": ""
  },
  {
   "property": "C71",
   "status": "proved",
   "theorems": [
    "SV2.C71_vectors",
    "SV2.C71_laws",
    "SV2.C71_base58",
    "SV2.C71_second_half",
    "SV2.C71_certificate",
    "SV2.C71_example"
   ],
   "note": ""
  },
  {
   "property": "C72",
   "status": "proved",
   "theorems": [
    "SV2.C72_accepted"
   ],
   "note": ""
  },
  {
   "property": "C73",
   "status": "proved",
   "theorems": [
    "SV2.Macro.C73_expansions",
    "SV2.Macro.C73_roundtrip",
    "SV2.Macro.C73_accepted",
    "SV2.Macro.C73_bool_not_canonical",
    "SV2.Macro.C73_truncation",
    "SV2.Macro.C73_never_panics",
    "SV2.Macro.C73_count",
    "SV2.Macro.C73_frame",
    "SV2.Macro.C73_stores"
   ],
   "note": ""
  },
  {
   "property": "C74",
   "status": "proved",
   "theorems": [
    "SV2.Tables.C74_expansions",
    "SV2.Tables.C74_written",
    "SV2.Tables.C74_roundtrip_iff",
    "SV2.Tables.C74_decoder",
    "SV2.Tables.C74_library_tables",
    "SV2.Tables.C74_long_string_confused",
    "SV2.Tables.C74_shared_string_confused",
    "SV2.Tables.C74_str0_iff",
    "SV2.Tables.C74_b0_panics",
    "SV2.Tables.C74_b0_decoder",
    "SV2.Tables.C74_message_type_expansion",
    "SV2.Tables.C74_message_types_iff",
    "SV2.Tables.C74_message_type_table"
   ],
   "note": ""
  },
  {
   "property": "C75",
   "status": "proved",
   "theorems": [
    "SV2.C75_final_types",
    "SV2.C75_final_messages",
    "SV2.C75_position_types",
    "SV2.C75_position_messages",
    "SV2.C75_asks_types",
    "SV2.C75_asks_messages",
    "SV2.C75_too_short",
    "SV2.C75_hopeless",
    "SV2.C75_hopeless_setup",
    "SV2.C75_chunking",
    "SV2.C75_delivery",
    "SV2.C75_bounded_buffer",
    "SV2.Macro.C75_any_declaration"
   ],
   "note": ""
  },
  {
   "property": "C76",
   "status": "proved",
   "theorems": [
    "SV2.C76_delivery",
    "SV2.C76_adversary",
    "SV2.C76_messages",
    "SV2.C76_tag_as_payload"
   ],
   "note": ""
  },
  {
   "property": "C77",
   "status": "proved",
   "theorems": [
    "SV2.C77_agrees",
    "SV2.C77_extra_keys",
    "SV2.C77_laws",
    "SV2.C77_certificate",
    "SV2.C77_example",
    "SV2.C77_second_half",
    "SV2.C77_neutral"
   ],
   "note": ""
  },
  {
   "property": "C78",
   "status": "proved",
   "theorems": [
    "SV2.Fuzz.C78_decoders",
    "SV2.Fuzz.C78_encryptor",
    "SV2.Fuzz.C78_noise",
    "SV2.Fuzz.C78_noise_ed25519"
   ],
   "note": ""
  },
  {
   "property": "C79",
   "status": "proved",
   "theorems": [
    "SV2.C79_as_drawn",
    "SV2.C79_empty_pair",
    "SV2.C79_before_or_after",
    "SV2.C79_transport",
    "SV2.C79_handshake",
    "SV2.C79_replaced",
    "SV2.C79_reuse"
   ],
   "note": ""
  },
  {
   "property": "C80",
   "status": "proved",
   "theorems": [
    "SV2.C80_outcomes",
    "SV2.C80_ends",
    "SV2.C80_completes",
    "SV2.C80_races",
    "SV2.C80_unanswered",
    "SV2.C80_cut",
    "SV2.C80_reply_cut",
    "SV2.C80_cut_unnoticed"
   ],
   "note": ""
  },
  {
   "property": "C81",
   "status": "proved",
   "theorems": [
    "SV2.C81_rfc",
    "SV2.C81_outcomes",
    "SV2.C81_ends",
    "SV2.C81_completes",
    "SV2.C81_races",
    "SV2.C81_first_cut"
   ],
   "note": ""
  },
  {
   "property": "C82",
   "status": "proved",
   "theorems": [
    "SV2.Noise.C82_authenticated",
    "SV2.C82_certified",
    "SV2.C82_example",
    "SV2.C82_rfc"
   ],
   "note": ""
  },
  {
   "property": "C83",
   "status": "proved",
   "theorems": [
    "SV2.C83_verdict",
    "SV2.C83_matching",
    "SV2.C83_mismatch",
    "SV2.C83_reload"
   ],
   "note": ""
  },
  {
   "property": "C84",
   "status": "proved",
   "theorems": [
    "SV2.C84_answer",
    "SV2.C84_echo",
    "SV2.C84_sealed",
    "SV2.C84_volley"
   ],
   "note": ""
  },
  {
   "property": "C85",
   "status": "proved",
   "theorems": [
    "SV2.C85_bound",
    "SV2.C85_half",
    "SV2.C85_last",
    "SV2.C85_kept"
   ],
   "note": ""
  },
  {
   "property": "C86",
   "status": "proved",
   "theorems": [
    "SV2.Noise.C86_client_is_anonymous",
    "SV2.Noise.C86_private_keys",
    "SV2.Noise.C86_role",
    "SV2.Noise.C86_clamped"
   ],
   "note": "Two runs are compared for all secrets: C86_client_is_anonymous (static key of a client), C86_private_keys (keys that agree in public key and Diffie-Hellman results), C86_clamped (X25519 of RFC 7748 as instance), C86_role. Influence through timing is not modelled."
  },
  {
   "property": "C87",
   "status": "proved",
   "theorems": [
    "SV2.C87_next_by_64",
    "SV2.C87_next_by",
    "SV2.C87_types",
    "SV2.C87_messages",
    "SV2.Macro.C87_any_declaration"
   ],
   "note": "C87_next_by_64 connects next_by of any width with the two versions of the model; Portable speaks about the decoder as a tree of requests. Widths below 26 bits are out: a length of 24 bits would not fit."
  },
  {
   "property": "C88",
   "status": "proved",
   "theorems": [
    "SV2.Examples.Open.C88_setup_alone",
    "SV2.Examples.Open.C88_setup_first",
    "SV2.Examples.Open.C88_setup_pool_first",
    "SV2.Examples.Open.C88_setup_idle",
    "SV2.Examples.Open.C88_setup_accept",
    "SV2.Examples.Open.C88_setup_accept_fails",
    "SV2.Examples.Open.C88_setup_fails",
    "SV2.Examples.Open.C88_setup_spoofed",
    "SV2.Examples.Open.C88_setup_displaced",
    "SV2.Examples.Open.C88_handshake_authenticated",
    "SV2.Examples.Open.C88_handshake_alone",
    "SV2.Examples.Open.C88_handshake_idle",
    "SV2.Examples.Open.C88_handshake_accept",
    "SV2.Examples.Open.C88_handshake_fails",
    "SV2.Examples.Open.C88_handshake_hung_up"
   ],
   "note": "C88_setup_spoofed, C88_setup_displaced, C88_setup_idle, C88_handshake_idle and C88_handshake_hung_up state how the programs fail the property a user would want; the rest holds for all events."
  },
  {
   "property": "C89",
   "status": "proved",
   "theorems": [
    "SV2.Noise.C89_any_roles",
    "SV2.Noise.C89_same_key_and_nonce",
    "SV2.Noise.C89_plaintexts_leak",
    "SV2.Noise.C89_deaf"
   ],
   "note": "C89_same_key_and_nonce, C89_plaintexts_leak and C89_deaf state what goes wrong when both sides pass the same flag; C89_any_roles shows that the handshake does not prevent it. C89_plaintexts_leak is for the primitives of the RFCs (Crypto.rfc)."
  },
  {
   "property": "C90",
   "status": "proved",
   "theorems": [
    "SV2.C90_count",
    "SV2.C90_no_overflow",
    "SV2.C90_call",
    "SV2.C90_history",
    "SV2.C90_wrap"
   ],
   "note": "C90_no_overflow is C43 without its hypothesis on the counter. C90_wrap shows that the hypothesis on the number of clears cannot be dropped: it speaks about a session whose counter is at its maximum."
  },
  {
   "property": "C91",
   "status": "proved",
   "theorems": [
    "SV2.Noise.C91_rfc",
    "SV2.Noise.C91_finite",
    "SV2.Noise.C91_worlds",
    "SV2.Noise.C91_indistinguishable",
    "SV2.Noise.C91_payload"
   ],
   "note": "The pads are information-theoretic: that ChaCha20 with an unknown key cannot be told from random pads is the usual assumption and is not modelled; C91_rfc shows that Crypto.rfc is an instance of the form. The attacker does not call clear_local_cipherstate or clear_remote_cipherstate, which reset the nonces (C41, C48); C89 shows what happens when the roles are equal. Lengths of messages are not secret. That two transport keys differ unless BLAKE2s has a collision is C41_directions_differ."
  },
  {
   "property": "C92",
   "status": "proved",
   "theorems": [
    "SV2.Noise.C92_rfc",
    "SV2.Noise.C92_finite",
    "SV2.Noise.C92_poly1305",
    "SV2.Noise.C92_prime",
    "SV2.Noise.C92_forging",
    "SV2.Noise.C92_known"
   ],
   "note": "Information-theoretic: that the one-time keys ChaCha20 makes under an unknown key cannot be told from random ones is the usual assumption and is not modelled; C92_rfc shows that Crypto.rfc is an instance of the form. The attacker does not clear cipher states; rekeying is C93_forging. That two transport keys differ unless BLAKE2s has a collision is C41_directions_differ."
  },
  {
   "property": "C93",
   "status": "proved",
   "theorems": [
    "SV2.Noise.C93_forging",
    "SV2.Noise.C93_streamKey",
    "SV2.C93_to_initiator",
    "SV2.C93_nonces",
    "SV2.C93_next",
    "SV2.C93_matched",
    "SV2.C93_prefix_or_forged",
    "SV2.C93_overtaken"
   ],
   "note": "C93_prefix_or_forged, C93_next, C93_matched and C93_overtaken assume only that the AEAD opens what it sealed (AeadCorrect, proved for Crypto.rfc). C93_forging is information-theoretic like C92: the one-time keys are random, the key stream is arbitrary. That no key of one direction equals the key of the other is a hypothesis there; without rekeying it is C41_directions_differ."
  },
  {
   "property": "C94",
   "status": "proved",
   "theorems": [
    "SV2.Noise.C94_rfc",
    "SV2.Noise.C94_finite",
    "SV2.Noise.C94_frames",
    "SV2.Noise.C94_sent",
    "SV2.Noise.C94_worlds",
    "SV2.Noise.C94_secret"
   ],
   "note": "That the block function of ChaCha20 under unknown keys cannot be told from a random one is the usual assumption and is not modelled; C94_rfc shows that Crypto.rfc is an instance of the form. The integrity part (C94_frames) and the secrecy part (C94_worlds, C94_secret) are about the attackers of C93 and C91."
  },
  {
   "property": "C95",
   "status": "proved",
   "theorems": [
    "SV2.Noise.C95_impostor",
    "SV2.Noise.C95_informed"
   ],
   "note": "The attacker is counted over the block function only: that it cannot compute the payload key without a secret key of the client or the server is the assumption on Curve25519 and on HKDF, and stays a condition (payloadKey not among the keys it asked for). Collisions of the hash function are named, not assumed away. Responders with the same ephemeral and static keys answering the same first message twice are excluded by the condition on the count; the code draws ephemeral keys at random."
  },
  {
   "property": "C96",
   "status": "proved",
   "theorems": [
    "SV2.Stack.C96_channel",
    "SV2.Stack.C96_network",
    "SV2.Stack.C96_informed"
   ],
   "note": "The counting is over the block function only. That the attacker cannot compute the payload key or the session keys without a secret key of the client or the server is the assumption on Curve25519 and HKDF and stays a condition (Careful, Private); so is the absence of a collision of the hash function. NX does not authenticate the client to the server: the statement is about connections of a client that follows the protocol."
  },
  {
   "property": "C97",
   "status": "proved",
   "theorems": [
    "SV2.Noise.C97_worlds",
    "SV2.Noise.C97_secret",
    "SV2.Noise.C97_exact",
    "SV2.Noise.C97_sessions"
   ],
   "note": "The counting is over the block function. The condition (Clean) is a property of the run: no key and nonce with which a text is encrypted is used for anything else. That the attacker does not compute blocks under the keys of the sessions, and that different handshakes give different keys, is the assumption on Curve25519 and HKDF. The attacker is not shown what recv_message decrypts."
  },
  {
   "property": "C98",
   "status": "proved",
   "theorems": [
    "SV2.C98_first",
    "SV2.C98_outcome",
    "SV2.C98_buffer",
    "SV2.C98_state",
    "SV2.C98_retry",
    "SV2.C98_refused"
   ],
   "note": "Violation proved: a failed send is not harmless, the handshake cannot be completed afterwards (C98_refused, example). That the initiator refuses is stated as: if it accepts, a ciphertext made with one key opens with another."
  },
  {
   "property": "C99",
   "status": "proved",
   "theorems": [
    "SV2.C99_first",
    "SV2.C99_second",
    "SV2.C99_accepts_or_refuses",
    "SV2.C99_nothing",
    "SV2.C99_harmless",
    "SV2.C99_hash",
    "SV2.C99_refused"
   ],
   "note": "Violation proved: a refused message is not harmless, one injected message of 48 bytes spoils the handshake (C99_refused, example; compare C42). That the genuine answer is refused is stated as: if it is accepted, a ciphertext made with one key and hash opens with others."
  },
  {
   "property": "C100",
   "status": "proved",
   "theorems": [
    "SV2.C100_pieces",
    "SV2.C100_declared",
    "SV2.C100_certificates",
    "SV2.C100_frame",
    "SV2.C100_arrives",
    "SV2.C100_fails",
    "SV2.C100_all_or_error",
    "SV2.C100_limit",
    "SV2.C100_again",
    "SV2.C100_garbled"
   ],
   "note": "Violation proved: a short write is not reported and turns the message into another valid one (C100_garbled; C100_limit for all messages and limits)."
  },
  {
   "property": "C101",
   "status": "proved",
   "theorems": [
    "SV2.Noise.C101_insistent",
    "SV2.Noise.C101_run",
    "SV2.Noise.C101_informed"
   ],
   "note": "As for C95: counted over the block function only, that the attacker cannot compute the payload key is a condition, collisions are named. A client that panics (C99: payload part of bad length) stops. The real examples do not go on after an error; this is about the API."
  },
  {
   "property": "C102",
   "status": "proved",
   "theorems": [
    "SV2.Stack.C102_connection",
    "SV2.Stack.C102_certified"
   ],
   "note": "As for C96 and C101: counted over the block function only; that the attacker does not use the payload key, the session keys and the tag keys is a condition; collisions and forgeries of signatures are named, not bounded. The certificate and the clock may depend on everything that happened before."
  },
  {
   "property": "C103",
   "status": "proved",
   "theorems": [
    "SV2.Noise.C103_impostor",
    "SV2.Noise.C103_informed"
   ],
   "note": "Counted over the hash function and the block function together. What is left as a condition is the assumption on Curve25519 alone: nobody but the two sides computes their Diffie-Hellman value. Responders with the same ephemeral and static keys answering the same first message twice are excluded by the condition on the count, as in C95. The bound (n + 1)^2 / 2^240 counts 29 hashes and rows for each question."
  },
  {
   "property": "C104",
   "status": "proved",
   "theorems": [
    "SV2.Stack.C104_outsider",
    "SV2.Stack.C104_informed"
   ],
   "note": "C103 and the statement of C96 joined: the keys of the transport phase are not taken as unknown, but come out of the handshake under attack. The attacker does not see the keys in the sessions (of responders that it asks it gets the messages, as from a real server), the steps contain no rekeying, and it starts each step anew from what it saw, so that knowledge from earlier questions has to be asked for again and is counted again. A shared secret counts as hashed if it stands after the first block of HMAC with any chaining key in an input of the hash function outside the derivation of keys, in the handshake or later."
  },
  {
   "property": "C105",
   "status": "proved",
   "theorems": [
    "SV2.Noise.C105_secret",
    "SV2.Noise.C105_informed"
   ],
   "note": "The texts are those after the handshake; the payload of the server's handshake message is chosen by the attacker. The steps contain no rekeying. As in C104 the attacker does not see the keys and starts each step anew from what it saw, so that knowledge from earlier questions has to be asked for again and is counted again. A shared secret counts as hashed if it stands after the first block of HMAC, with a chaining key that is not the first one, in an input of the hash function outside the derivation of keys."
  },
  {
   "property": "C106",
   "status": "proved",
   "theorems": [
    "SV2.Noise.C106_forward",
    "SV2.Noise.C106_informed"
   ],
   "note": "The attacker does not change the two messages of the handshake (against one that does and has the static secret there is no protection: it can answer as the server). That all secrets are known means that the attacker is an arbitrary program for given secrets; the one thing it does not do is to hash the Diffie-Hellman value of the two ephemeral keys after the first block of HMAC with the first chaining key. It asks no responders, since it can compute their answers. The steps contain no rekeying; as in C105 the attacker does not see the keys and starts each step anew from what it saw."
  },
  {
   "property": "C107",
   "status": "proved",
   "theorems": [
    "SV2.Noise.C107_stolen",
    "SV2.Noise.C107_other_direction",
    "SV2.Noise.C107_before"
   ],
   "note": "C107_stolen is about the key for the initiator's messages: it is taken to be random and independent of all else (that it is as good as that after a handshake is what C104 to C106 are about). The attacker may be chosen with the knowledge of the key for the responder's messages, so that the traffic in that direction gives it nothing it could not compute by itself; it is left out of the steps. Both sides change keys at the same time; the hash function is fixed and the attacker may hash. That the sessions keep no other copy of old keys (stack, freed memory) is outside the model."
  },
  {
   "property": "C108",
   "status": "proved",
   "theorems": [
    "SV2.Noise.C108_incognito",
    "SV2.Noise.C108_informed",
    "SV2.Noise.C108_probe"
   ],
   "note": "The attacker does not change the two messages of the handshake and asks no responders (it can compute their answers, since it may know both static secrets). The two servers use the same ephemeral secret and the same prologue, and answers of the same length; certificates of different lengths in the payload would tell them apart. Addresses and ports of the connection are outside the model. C108_probe is about answers of at most 2128 bytes, what a client takes."
  },
  {
   "property": "C109",
   "status": "proved",
   "theorems": [
    "SV2.Stack.C109_intruder",
    "SV2.Stack.C109_replay",
    "SV2.Stack.C109_informed"
   ],
   "note": "What C104 is for the secret of the static key, this is for the secret of the ephemeral keys. The attacker does not change the two messages of the handshake (with the static secret it could answer as the server), it asks no responders, since it can compute their answers, the steps contain no rekeying, and it does not see the keys and starts each step anew from what it saw. C109_replay is about a server's message of at most 2128 bytes, what a client takes; the session in the place of the client takes no part."
  },
  {
   "property": "C110",
   "status": "proved",
   "theorems": [
    "SV2.Stack.C110_keys",
    "SV2.Stack.C110_channel"
   ],
   "note": "C96_network without its condition that no session key is used for anything else: C110_keys shows that this condition holds but for a small share. The hash function is fixed; the attacker may hash. It asks no responders (it can compute their answers), does not see the keys, and starts each step anew from what it saw. That the keys after a handshake are as good as random is what C104 to C106 are about."
  },
  {
   "property": "C111",
   "status": "proved",
   "theorems": [
    "SV2.Stack.C111_intruder",
    "SV2.Stack.C111_replay"
   ],
   "note": "With E = 0 this is C109_intruder and C109_replay. The attacker does not change the two messages of the handshake, asks no responders, since it can compute their answers, does not see the keys, and starts each step anew from what it saw. C111_replay is about a server's message of at most 2128 bytes, what a client takes; the session in the place of the client takes no part."
  },
  {
   "property": "C112",
   "status": "proved",
   "theorems": [
    "SV2.Stack.C112_outsider"
   ],
   "note": "With E = 0 this is C104_outsider; C104_informed shows that the condition on the hashed values is needed here, too. The attacker does not see the keys in the sessions, of responders that it asks it gets the messages, and it starts each step anew from what it saw."
  },
  {
   "property": "C113",
   "status": "proved",
   "theorems": [
    "SV2.Stack.C113_secret"
   ],
   "note": "C94_worlds and C94_secret for an attacker that may compute blocks: those have a fixed key pair and an attacker without access to the block function, and stop when both sides send with the same key; here nothing stops. The hash function is fixed; the attacker may hash. It asks no responders (it can compute their answers) and does not see the keys. The number of changes of keys is bounded by the number of steps only. The sessions need not have the same nonces. That the keys after a handshake are as good as random is what C104 to C106 are about."
  },
  {
   "property": "C114",
   "status": "proved",
   "theorems": [
    "SV2.Noise.C114_forward"
   ],
   "note": "C106 with rekeying. As there, the attacker does not see the keys nor the texts that are read, asks no responders (it can compute their answers) and starts each step anew from what it saw; the messages of the handshake arrive as they were sent. The number of changes of keys is bounded by the number of steps only."
  },
  {
   "property": "C115",
   "status": "proved",
   "theorems": [
    "SV2.Noise.C115_secret"
   ],
   "note": "C105 with rekeying. As there, the payload of the server's handshake message is chosen by the attacker, which does not see the keys nor the texts that are read and starts each step anew from what it saw. The number of changes of keys is bounded by the number of steps only."
  }
 ]
}