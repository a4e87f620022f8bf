{
 "claims": [
  {
   "property": "C01",
   "status": "proved",
   "theorems": [
    "Jess.wire_roundtrip",
    "Jess.wire_roundtrip_exact",
    "Jess.wire_too_many_seals"
   ],
   "note": "round trip for up to 255 seals and any trailing data; letters with more seals are proved to be always rejected by the parser"
  },
  {
   "property": "C02",
   "status": "proved",
   "theorems": [
    "Jess.wire_unambiguous"
   ],
   "note": "for any two letters and any trailing data"
  },
  {
   "property": "C03",
   "status": "proved",
   "theorems": [
    "Jess.wire_parse_sound",
    "Jess.wire_parse_no_panic",
    "Jess.wire_parse_append",
    "Jess.wire_truncation_rejected",
    "Jess.wire_version_rejected",
    "Jess.wire_parse_iff"
   ],
   "note": "all inputs"
  },
  {
   "property": "C04",
   "status": "proved",
   "theorems": [
    "Jess.file_roundtrip",
    "Jess.file_dump_error",
    "Jess.file_parse_sound",
    "Jess.file_dump_error_loses_data",
    "Jess.Formats.letter_file_survives",
    "Jess.Formats.closed_letter_survives",
    "Jess.Formats.letter_formats_example"
   ],
   "note": "the header serializer (dsd) is an abstract codec in the first theorems and the real JSON one in the Formats theorems (UTF-8 texts, see C114); file_dump_error_loses_data is a finding"
  },
  {
   "property": "C05",
   "status": "partial",
   "theorems": [
    "Jess.ad_binds_partial",
    "Jess.ad_collision"
   ],
   "note": "REFUTED as stated: ad_collision exhibits two letters with 17 and more key seals and equal associated data. Proved: bound as soon as one of the two letters has at most 16 key seals"
  },
  {
   "property": "C06",
   "status": "partial",
   "theorems": [
    "Jess.applyKeys_not_authenticated"
   ],
   "note": "REFUTED: ApplyKeys is documented as MAC'd but is not part of the associated data of any letter"
  },
  {
   "property": "C07",
   "status": "partial",
   "theorems": [
    "Jess.signing_data_binds_partial",
    "Jess.signing_data_collision"
   ],
   "note": "REFUTED as stated: letters with 17 key seals, different seals and the same signing data (signing_data_collision; same cause as C05). Proved if one of the two letters has at most 16 key seals"
  },
  {
   "property": "C08",
   "status": "partial",
   "theorems": [
    "Jess.signature_binds_partial",
    "Jess.signature_binds_same_suite",
    "Jess.signature_boundary_collision"
   ],
   "note": "REFUTED as stated: signature_boundary_collision moves metadata bytes into the data. Proved: same-length associated data / same signed prefix cases"
  },
  {
   "property": "C09",
   "status": "proved",
   "theorems": [
    "Jess.compliance_iff",
    "Jess.compliance_error_iff",
    "Jess.mem_add",
    "Jess.mem_remove",
    "Jess.built_nodup",
    "Jess.parse_iff",
    "Jess.noSpec_roundtrip"
   ],
   "note": "all requirement sets, all strings"
  },
  {
   "property": "C16",
   "status": "proved",
   "theorems": [
    "Jess.session_provides",
    "Jess.session_no_confidentiality_without_integrity",
    "Jess.session_kdf",
    "Jess.session_tools_have_signets",
    "Jess.library_key_source",
    "Jess.session_without_key_source"
   ],
   "note": "Proved for every session of the API (library_key_source; only the registered suites can be reached, registerSuite and Envelope.suite are not exported); everything but the key source for all suites. Remark: a suite that only the package itself could register, with keyed and signing tools and without recipient authentication, would have no key source (session_without_key_source)."
  },
  {
   "property": "C17",
   "status": "partial",
   "theorems": [
    "Jess.min_level_enforced",
    "Jess.acceptance_antitone",
    "Jess.set_minimum_antitone",
    "Jess.minimum_overrides_envelope",
    "Jess.rsa_hash_not_rated",
    "Jess.empty_key_accepted",
    "Jess.session_example",
    "Jess.set_minimum_off",
    "Jess.set_minimum_example"
   ],
   "note": "Proved for everything whose level is applicable (levels 0 mean not applicable) and monotone in the demanded level. REFUTED in three details: hash functions of RSA tools are not rated, empty key secrets are accepted, a global minimum overrides a higher envelope level."
  },
  {
   "property": "C18",
   "status": "proved",
   "theorems": [
    "Jess.no_signet_ignored",
    "Jess.no_signet_ignored_registered",
    "Jess.recipient_ignored"
   ],
   "note": "For every registered suite without conditions, for custom suites if tool names are distinct; recipient_ignored shows that this condition is needed."
  },
  {
   "property": "C19",
   "status": "proved",
   "theorems": [
    "Jess.registered_suites_sound",
    "Jess.registered_ids_unique",
    "Jess.recommended_suites_exist",
    "Jess.register_keeps",
    "Jess.register_new",
    "Jess.register_nodup",
    "Jess.getSuite_sound",
    "Jess.tool_id_read",
    "Jess.registered_tools_sound"
   ],
   "note": ""
  },
  {
   "property": "C11",
   "status": "proved",
   "theorems": [
    "Jess.session_reusable",
    "Jess.session_reusable_example"
   ],
   "note": "any session, any finite history of Close/Open/Verify operations (with any results) followed by an operation: the result is that of a new session; includes Poly1305 key reuse guards and managed hashers"
  },
  {
   "property": "C53",
   "status": "proved",
   "theorems": [
    "Jess.nonce_size",
    "Jess.close_nonce",
    "Jess.wire_close_nonce",
    "Jess.distinct_draws_distinct_keys",
    "Jess.wire_close_authenticates",
    "Jess.wire_distinct_keys",
    "Jess.nonce_example"
   ],
   "note": "size for every session; the nonce of every letter (also of wire sessions) is its own draw from the random source; letters with different draws are encrypted with different keys, or the key derivation has an explicit collision (no hypothesis on it). Quality of the random source: C45"
  },
  {
   "property": "C10",
   "status": "partial",
   "theorems": [
    "Jess.close_open_roundtrip_partial",
    "Jess.close_open_general",
    "Jess.toyPrims_correct",
    "Jess.roundtrip_example",
    "Jess.key_and_password_spill",
    "Jess.anonymous_signet_not_openable",
    "Jess.lowered_level_not_openable"
   ],
   "note": "Proved for every registered suite (general form for custom suites), every data, randomness, trust store with the counterparts, and functionally correct primitives, under three conditions that are shown to be needed: no mix of key and password secrets (REFUTED otherwise: key_and_password_spill), every signet has an ID (anonymous_signet_not_openable), the envelope does not lower the security level (lowered_level_not_openable)"
  },
  {
   "property": "C13",
   "status": "proved",
   "theorems": [
    "Jess.open_sender_authenticated",
    "Jess.open_verifies_signatures",
    "Jess.verify_needs_signature",
    "Jess.open_example",
    "Jess.toyWorld_keeps"
   ],
   "note": "registered suites, all letters, all trust stores and callbacks (that keep the scheme of the signet they are asked to fill)"
  },
  {
   "property": "C14",
   "status": "proved",
   "theorems": [
    "Jess.verify_needs_signature",
    "Jess.open_example",
    "Jess.session_verify_needs_signature",
    "Jess.session_verify_example"
   ],
   "note": "all letters"
  },
  {
   "property": "C15",
   "status": "proved",
   "theorems": [
    "Jess.requirements_enforced",
    "Jess.nil_requires_all",
    "Jess.missing_requirement_rejected"
   ],
   "note": "all letters, requirement sets and suite registries"
  },
  {
   "property": "C50",
   "status": "partial",
   "theorems": [
    "Jess.signets_prepared",
    "Jess.signets_prepared_closing",
    "Jess.key_and_password_spill",
    "Jess.nameFromStore_shown",
    "Jess.ShownAs.unique"
   ],
   "note": "REFUTED as stated: key_and_password_spill (a password after a shared key is asked for with the create callback when opening). Proved for all lists where no signet follows a stub of a shared key, and for closing"
  },
  {
   "property": "C52",
   "status": "partial",
   "theorems": [
    "Jess.level_kept_openable_partial",
    "Jess.lowered_level_not_openable"
   ],
   "note": "REFUTED: lowered_level_not_openable. Proved: levels that are not lowered"
  },
  {
   "property": "C12",
   "status": "partial",
   "theorems": [
    "Jess.open_authenticates",
    "Jess.close_authenticates",
    "Jess.tampering_detected_partial",
    "Jess.tampering_example",
    "Jess.tampering_refuted",
    "Jess.ad_collision"
   ],
   "note": "REFUTED beyond 16 key seals: with an ideal cipher, a letter closed with 19 shared keys and a modified one with other key seals both open (tampering_refuted). Proved: registered suites that encrypt, honestly closed letters with at most 16 key seals (the opened letter with any number), that the letter's data is not a forgery under the key with which it is opened is an explicit hypothesis, about this letter only. Signed-only letters: see C13 and C08"
  },
  {
   "property": "C26",
   "status": "partial",
   "theorems": [
    "Jess.letters_do_not_panic_partial",
    "Jess.parsed_letters_do_not_panic",
    "Jess.null_seal_panics",
    "Jess.null_seal_example",
    "Jess.toyPrims_noPanic",
    "Jess.toyWorld_sound",
    "Jess.wire_open_no_panic_partial",
    "Jess.wire_open_panics",
    "Jess.wire_no_panic_example",
    "Jess.wire_open_panics_example"
   ],
   "note": "Letter.Open and Letter.Verify: proved for all letters whose seals are present; REFUTED for parsed letters with null seals (null_seal_panics). Wire Open: proved for every session that has sent or accepted its first letter, after any history; REFUTED for sessions that have done neither (wire_open_panics: every letter without keys panics)"
  },
  {
   "property": "C51",
   "status": "proved",
   "theorems": [
    "Jess.library_close_establishes",
    "Jess.library_close_fails",
    "Jess.library_open_establishes",
    "Jess.wire_first_close_establishes",
    "Jess.wire_first_open_establishes",
    "Jess.wire_answer_establishes",
    "Jess.wire_answer_accepted_establishes",
    "Jess.establish_example",
    "Jess.close_establishes",
    "Jess.open_establishes",
    "Jess.failure_of_first_tool_ignored",
    "Jess.failure_example"
   ],
   "note": "Proved for every session of the API (registered suites), for letters and for wire sessions (first letter, answer and its acceptance, in any state); general form for all suites with at most one key exchange and one key encapsulation tool. Remark: in a suite with two key exchange tools, which only the package itself could register, the failure of the first is ignored (failure_of_first_tool_ignored)."
  },
  {
   "property": "C20",
   "status": "proved",
   "theorems": [
    "Jess.wire_in_order_delivery",
    "Jess.wire_delivery_example"
   ],
   "note": "both parties, any interleaving of successful sends and in-order receipts, any random numbers; letters are handed over as values (C01 covers their serialization). A send that fails half-way (exhausted randomness) is C68"
  },
  {
   "property": "C21",
   "status": "proved",
   "theorems": [
    "Jess.wire_accepts_in_order",
    "Jess.wire_accepts_once",
    "Jess.wire_order_example",
    "Jess.replaced_letter_refuted"
   ],
   "note": "For an unreliable network (drops, duplicates, reorders the letters of the peer): what a party accepts is a prefix of what the peer sent, in both directions, whatever the schedule. Against an active attacker: a subsequence (never twice, never out of order); replaced_letter_refuted shows that an attacker who replaces a letter's data can make its successor be accepted although the letter was rejected. Ideal crypto is a condition on the values of the conversation (NoBreak), random nonces of a party differ. A party's own letters coming back are C54"
  },
  {
   "property": "C22",
   "status": "partial",
   "theorems": [
    "Jess.message_keys_distinct_partial",
    "Jess.old_letters_safe_partial",
    "Jess.wire_keys_example",
    "Jess.same_key_both_directions_refuted",
    "Jess.sent_keys_recomputable_refuted"
   ],
   "note": "REFUTED in both halves: answer and apply letter of the handshake are derived from the same material, so with equal random nonces they are protected with the same key and cipher nonce; and the client's letters before the server's answer can be recomputed from its state (in every conversation). Proved: letters of one party never share a key, letters of both parties do not unless their nonces are equal; once a party has sent and accepted a letter, nothing derived from the keys it holds opens its earlier letters (of both directions)"
  },
  {
   "property": "C23",
   "status": "partial",
   "theorems": [
    "Jess.wire_never_rekeys",
    "Jess.wire_rekey_example",
    "Jess.wire_first_letter_keys_partial"
   ],
   "note": "REFUTED: in every history of a party at most one letter with keys is sent, however many messages follow; wire_rekey_example is a history past the limit. Proved: the first letter carries keys"
  },
  {
   "property": "C24",
   "status": "partial",
   "theorems": [
    "Jess.any_letter_advances",
    "Jess.forged_letter_breaks_session",
    "Jess.letter_without_nonce_partial"
   ],
   "note": "REFUTED: a rejected letter with any nonce replaces the receiving key, the genuine next letter is then rejected. Proved: a letter without nonce changes nothing"
  },
  {
   "property": "C25",
   "status": "proved",
   "theorems": [
    "Jess.wire_correspondence_iff",
    "Jess.wire_session_material",
    "Jess.wire_letter_material",
    "Jess.wire_refuses_example"
   ],
   "note": "exact characterisation, for all envelopes; for the library's suites there are no secrets and senders at all"
  },
  {
   "property": "C54",
   "status": "partial",
   "theorems": [
    "Jess.client_accepts_own_letter",
    "Jess.server_accepts_own_letter",
    "Jess.reflection_example"
   ],
   "note": "REFUTED: for all primitives that work, both sides accept a letter of their own that is reflected to them"
  },
  {
   "property": "C36",
   "status": "proved",
   "theorems": [
    "Jess.lhash_load_iff",
    "Jess.lhash_round_trip",
    "Jess.lhash_text_round_trip",
    "Jess.lhash_rejects_trailing",
    "Jess.lhash_load_total",
    "Jess.lhash_equal_iff",
    "Jess.lhash_digest_valid",
    "Jess.lhash_matches_iff",
    "Jess.lhash_digest_matches",
    "Jess.toyHashes_sized",
    "Jess.lhash_example",
    "Jess.lhash_equalRaw_iff",
    "Jess.lhash_text_sound",
    "Jess.base64_accepts",
    "Jess.hex_accepts",
    "Jess.base58_accepts",
    "Jess.text_codes_example"
   ],
   "note": "for all hash functions (the registered tags and sizes), all data and all byte strings"
  },
  {
   "property": "C37",
   "status": "partial",
   "theorems": [
    "Jess.password_rejected_iff",
    "Jess.password_unlisted_rejected",
    "Jess.password_level_bound_partial",
    "Jess.password_monotone_partial",
    "Jess.long_password_rejected",
    "Jess.iterations_lower_rating"
   ],
   "note": "REFUTED for long passwords: from about 172 characters of a pool of 62 the estimate overflows floating point and is -2^63. Proved for all passwords below that; rejection is characterised for all passwords. Floating point rounding is idealised"
  },
  {
   "property": "C45",
   "status": "proved",
   "theorems": [
    "Jess.random_bytes_complete",
    "Jess.first_rng_wins",
    "Jess.callbacks_stay",
    "Jess.first_callback_wins",
    "Jess.nil_rng_stays"
   ],
   "note": "sequential callers; finding: a nil reader is accepted and stays; see C55 for concurrent callers"
  },
  {
   "property": "C46",
   "status": "partial",
   "theorems": [
    "Jess.rsa_level_exact",
    "Jess.rsa_key_size_provides_partial",
    "Jess.rsa_key_size_sufficient_partial",
    "Jess.rsa_key_size_monotone_partial",
    "Jess.rsa_level_monotone",
    "Jess.rsa_high_level_weak_key"
   ],
   "note": "REFUTED above level 256 (key size 256 bits); proved for all levels up to 256"
  },
  {
   "property": "C47",
   "status": "proved",
   "theorems": [
    "Jess.poly_one_mac_per_setup",
    "Jess.poly_mac_key",
    "Jess.session_mac_is_poly",
    "Jess.poly_example",
    "Jess.poly_reset_burns"
   ],
   "note": "all call sequences; that two Setups fetch different keys is the key derivation's property"
  },
  {
   "property": "C48",
   "status": "partial",
   "theorems": [
    "Jess.material_ambiguous",
    "Jess.material_unambiguous_partial",
    "Jess.split_keys_open",
    "Jess.split_keys_example"
   ],
   "note": "REFUTED: material is concatenated, so sessions with other keys of the same concatenation open the same letters; unambiguous if the lengths are fixed"
  },
  {
   "property": "C55",
   "status": "partial",
   "theorems": [
    "Jess.concurrent_rng_replaced",
    "Jess.concurrent_rng_partial"
   ],
   "note": "REFUTED with a concrete schedule (check and assignment are not atomic); what remains holds for all schedules"
  },
  {
   "property": "C27",
   "status": "partial",
   "theorems": [
    "Jess.recipient_is_public",
    "Jess.recipient_determined",
    "Jess.export_no_secrets",
    "Jess.secrets_not_exported",
    "Jess.envelope_no_secrets",
    "Jess.public_flag_leaks",
    "Jess.text_example",
    "Jess.dir_envelope_keeps_secrets"
   ],
   "note": "proved as non-interference for signets without the public flag and for cleaned envelopes; REFUTED for a signet flagged public whose stored key has private bytes (public_flag_leaks); REFUTED for envelopes written by the directory store"
  },
  {
   "property": "C28",
   "status": "partial",
   "theorems": [
    "Jess.text_shape",
    "Jess.kinds_exclusive",
    "Jess.text_parses",
    "Jess.backup_round_trip",
    "Jess.export_round_trip",
    "Jess.envelope_text_round_trip",
    "Jess.key_backup_lost",
    "Jess.export_import_partial",
    "Jess.toyDsd_sound",
    "Jess.text_example",
    "Jess.import_dispatch",
    "Jess.import_of_parsed",
    "Jess.text_name_chars",
    "Jess.text_name_kept",
    "Jess.text_name_example",
    "Jess.Formats.backup_round_trip_real",
    "Jess.Formats.export_round_trip_real",
    "Jess.Formats.envelope_text_round_trip_real",
    "Jess.Formats.text_not_importable",
    "Jess.Formats.text_not_importable_example"
   ],
   "note": "round trip for signing and exchange signets and envelopes, for every name (with the real formats: every UTF-8 name); REFUTED for key and password signets, whose backup can not be loaded again (key_backup_lost), and for names that are not UTF-8, whose text no parser accepts (Formats.text_not_importable)"
  },
  {
   "property": "C29",
   "status": "partial",
   "theorems": [
    "Jess.key_round_trip",
    "Jess.public_never_private",
    "Jess.load_x25519_iff",
    "Jess.load_ed25519_iff",
    "Jess.load_nist_iff",
    "Jess.key_version_checked",
    "Jess.load_total",
    "Jess.generate_never_overwrites",
    "Jess.signet_key_round_trip",
    "Jess.keyKind_tools",
    "Jess.nist_truncated_accepted",
    "Jess.ed25519_public_restore",
    "Jess.toyLib_sound",
    "Jess.toyCodec_uses",
    "Jess.keyPair_examples",
    "Jess.signet_key_example"
   ],
   "note": "all clauses but one; REFUTED: malformed NIST keys (cut off after the public part) are accepted as private keys (nist_truncated_accepted)"
  },
  {
   "property": "C56",
   "status": "partial",
   "theorems": [
    "Jess.backup_command_broken"
   ],
   "note": "REFUTED: the check is inverted, no stored signet is ever backed up and a missing one crashes the command"
  },
  {
   "property": "C30",
   "status": "proved",
   "theorems": [
    "Jess.mem_store_is_map",
    "Jess.mem_store_no_shadow",
    "Jess.storageID_inj",
    "Jess.mem_store_example"
   ],
   "note": "all sequences, including changes of stored signets from outside; operations hold the mutex"
  },
  {
   "property": "C31",
   "status": "partial",
   "theorems": [
    "Jess.dir_select_complete",
    "Jess.mem_select_incomplete",
    "Jess.mem_select_partial",
    "Jess.passes_iff",
    "Jess.mem_select_example",
    "Jess.dir_store_example",
    "Jess.dir_select_files"
   ],
   "note": "proved for the directory store; REFUTED for the in-memory store: one signet of another scheme makes the selection empty"
  },
  {
   "property": "C32",
   "status": "proved",
   "theorems": [
    "Jess.dir_store_confined",
    "Jess.storageID_inj",
    "Jess.storageID_ne_envelope",
    "Jess.envelopeName_inj",
    "Jess.playsNice_iff",
    "Jess.resolve_cleanPath",
    "Jess.path_examples"
   ],
   "note": "all strings, over a model of filepath.Clean and path resolution without symbolic links"
  },
  {
   "property": "C33",
   "status": "proved",
   "theorems": [
    "Jess.dir_store_is_map",
    "Jess.dir_store_refuses",
    "Jess.dirStep_refines",
    "Jess.dir_store_example",
    "Jess.toyDsd_sound",
    "Jess.Formats.dir_store_is_map_real"
   ],
   "note": "the map holds what is serialized of a signet (dir_store_loses_key: not a key that has only been generated); writes that stop in the middle are C34"
  },
  {
   "property": "C34",
   "status": "partial",
   "theorems": [
    "Jess.crash_loses_signet",
    "Jess.crash_damages_one_entry_partial",
    "Jess.crash_outside_write_partial",
    "Jess.dir_store_example"
   ],
   "note": "REFUTED: a crash after the file was opened loses old and new; proved: only that entry is affected"
  },
  {
   "property": "C57",
   "status": "partial",
   "theorems": [
    "Jess.keyring_store_is_map",
    "Jess.keyring_secret_lost",
    "Jess.keyring_example",
    "Jess.Formats.keyring_store_is_map_real"
   ],
   "note": "proved with getting including loading the key; REFUTED: keys and passwords can not be read back"
  },
  {
   "property": "C35",
   "status": "proved",
   "theorems": [
    "Jess.supply_hands_out_once",
    "Jess.supply_levels",
    "Jess.cache_is_queue",
    "Jess.cache_level_exact",
    "Jess.cache_fill",
    "Jess.fill_overflow",
    "Jess.cache_example",
    "Jess.supply_lost_stock",
    "Jess.supply_status"
   ],
   "note": "all schedules; order per cache; findings: stock of a cache that loses the creation race is never handed out (supply_lost_stock), huge amounts fill nothing (fill_overflow)"
  },
  {
   "property": "C38",
   "status": "partial",
   "theorems": [
    "Jess.text_checksum_round_trip_partial",
    "Jess.text_checksum_refuted",
    "Jess.text_checksum_example",
    "Jess.text_can_add_example",
    "Jess.spaceCodes_iff",
    "Jess.text_line_ends_partial",
    "Jess.line_ends_example"
   ],
   "note": "REFUTED in general (six kinds of counterexamples in text_checksum_refuted: stale checksum lines, all-comment content, empty or multi-line comment sign, indented metadata line, unknown placement); proved under the conditions CanAdd, with an exact condition on old checksum lines, and idempotence"
  },
  {
   "property": "C39",
   "status": "proved",
   "theorems": [
    "Jess.text_verify_iff",
    "Jess.text_change_detected",
    "Jess.text_verdict_invariant",
    "Jess.text_verify_total",
    "Jess.textSplit_iff",
    "Jess.text_verify_example"
   ],
   "note": ""
  },
  {
   "property": "C40",
   "status": "partial",
   "theorems": [
    "Jess.armor_round_trip",
    "Jess.armor_add",
    "Jess.armor_section",
    "Jess.armor_replace",
    "Jess.armor_replace_partial",
    "Jess.armor_dangling_loses",
    "Jess.armor_example",
    "Jess.armor_replace_inside",
    "Jess.base64_accepts"
   ],
   "note": "REFUTED for files with an armor start without an end (armor_dangling_loses: the new signature is swallowed) and when removing blocks joins text to an armor start (armor_example); proved for every file made of complete blocks and other text"
  },
  {
   "property": "C41",
   "status": "partial",
   "theorems": [
    "Jess.verify_file_sound",
    "Jess.verify_file_sound_partial",
    "Jess.verify_file_entry_sound",
    "Jess.verify_file_refuted",
    "Jess.sign_verify_example"
   ],
   "note": "REFUTED as stated in two ways (verify_file_refuted): a letter without signature that uses a shared key or password is accepted, and with standard input the second signature is checked against the empty rest of the input. Proved: no error means at least one signature, and every entry is the content of a letter whose signatures all verified or that was decrypted with a shared secret, with all required metadata and the hash of the current content"
  },
  {
   "property": "C42",
   "status": "partial",
   "theorems": [
    "Jess.sign_verify_file_partial",
    "Jess.sign_verify_refuted",
    "Jess.sign_verify_example",
    "Jess.sign_verify_example_signers",
    "Jess.suite_hash_label"
   ],
   "note": "Proved for the four suites that only sign, for data files and standard input, for missing and existing signature files without incomplete armor, any number of times. REFUTED for suites that encrypt (accepted by SignFile, never verify) and for signature files with an incomplete block (sign_verify_refuted)"
  },
  {
   "property": "C43",
   "status": "partial",
   "theorems": [
    "Jess.json_checksum_iff",
    "Jess.json_signature_sound",
    "Jess.json_change_detected",
    "Jess.json_verdict_invariant",
    "Jess.json_checksum_round_trip_partial",
    "Jess.json_signature_round_trip_partial",
    "Jess.json_refuted",
    "Jess.json_example",
    "Jess.json_file_example",
    "Jess.toyJson_sound",
    "Jess.base64_accepts",
    "Jess.json_signature_detached"
   ],
   "note": "First half proved: verification succeeds only with at least one checksum or signature and if all match the canonical content. Second half REFUTED (json_refuted: stale checksums are kept, duplicate metadata keys, encrypting suites, and with sjson v1.2.5 a document that is a number or a string is replaced by its metadata); proved for objects whose old metadata is valid, without duplicate metadata keys, and suites that only sign"
  },
  {
   "property": "C44",
   "status": "partial",
   "theorems": [
    "Jess.bulk_verify_partial",
    "Jess.bulk_verify_ordered",
    "Jess.bulk_verify_directory",
    "Jess.bulk_verify_tree",
    "Jess.bulk_example",
    "Jess.bulk_verify_refuted"
   ],
   "note": "REFUTED in general: a letter or signature file x listed after x.sig is not looked at, and a big letter which the user declines to load counts as verified. Proved: success means nothing was skipped and every visited path is verified, except exactly these; for one directory (walked in lexical order) every letter and signature file is verified."
  },
  {
   "property": "C49",
   "status": "partial",
   "theorems": [
    "Jess.close_keeps_data",
    "Jess.close_memory",
    "Jess.open_memory_partial",
    "Jess.open_copies_partial",
    "Jess.open_twice_refuted",
    "Jess.close_stream_example",
    "Jess.toyPrims_sizes"
   ],
   "note": "REFUTED for opening: Open decrypts in place, so an encrypted letter can be opened only once (and a failed Open destroys it). Proved on a memory model with slices: closing (registered suites) changes no byte of the caller; opening changes only bytes of the letter's data; both refine the model on values; copies can be opened independently."
  },
  {
   "property": "C58",
   "status": "proved",
   "theorems": [
    "Jess.wire_stream_delivery",
    "Jess.wire_stream_example",
    "Jess.wire_roundtrip_exact"
   ],
   "note": "both parties, any interleaving of successful sends and receipts; refines C20 by the byte streams. Assumed: nothing is longer than 2^64 bytes; conditions of C20 (server holds the recipients' private keys, signets have IDs, level not lowered)"
  },
  {
   "property": "C59",
   "status": "partial",
   "theorems": [
    "Jess.closed_letter_on_wire",
    "Jess.close_wire_open_partial",
    "Jess.wire_loses_letters"
   ],
   "note": "exact condition for surviving the format; REFUTED for letters with shared keys, passwords or signatures: the format drops seal schemes and signatures, so they can not be opened afterwards (wire_loses_letters)"
  },
  {
   "property": "C60",
   "status": "partial",
   "theorems": [
    "Jess.open_checks_macs",
    "Jess.close_makes_macs",
    "Jess.mac_binds_partial",
    "Jess.mac_boundary_collision",
    "Jess.mac_example"
   ],
   "note": "first two parts proved in full; the third REFUTED for letters of different data length (mac_boundary_collision: the data is directly followed by the associated data) and proved for equally long data and at most 16 seals in one of the letters"
  },
  {
   "property": "C61",
   "status": "partial",
   "theorems": [
    "Jess.close_open_commands_partial",
    "Jess.sign_verify_commands_partial",
    "Jess.checksum_commands_partial",
    "Jess.commands_example",
    "Jess.sums_example",
    "Jess.commands_undo_refuted"
   ],
   "note": "REFUTED in general (commands_undo_refuted): letters closed under a lowered level are not opened, signatures of suites that encrypt do not verify, checksums added to a file with a stale checksum line or of comments only do not verify. Proved: composition of C04 and C10, of C42, and of C38 and C43, with their conditions (which are shown to be needed there) and the file names the commands understand; the verify command needs signers with information in the trust store (C73: it crashes otherwise)"
  },
  {
   "property": "C62",
   "status": "proved",
   "theorems": [
    "Jess.open_command_safe",
    "Jess.close_command_safe",
    "Jess.sign_command_safe",
    "Jess.default_output_not_input",
    "Jess.commands_example"
   ],
   "note": "any disk, input, answers and any end of writing (complete, refused, or stopped after any number of bytes)"
  },
  {
   "property": "C63",
   "status": "partial",
   "theorems": [
    "Jess.open_command_safe",
    "Jess.close_command_safe",
    "Jess.sign_command_safe",
    "Jess.checksum_add_safe",
    "Jess.commands_refuted"
   ],
   "note": "REFUTED (commands_refuted): outputs are truncated before they are written, so the old output (for checksum add: the user's file) is lost when writing fails. Proved: only that file is affected, and nothing if the command fails before it writes"
  },
  {
   "property": "C64",
   "status": "partial",
   "theorems": [
    "Jess.open_command_safe",
    "Jess.close_command_safe",
    "Jess.sign_command_safe",
    "Jess.commands_refuted"
   ],
   "note": "REFUTED (commands_refuted): sign with --output - writes a file named -; opening -.letter, the default output of closing standard input, writes the decrypted data to standard output. Proved for all names given explicitly to open and close"
  },
  {
   "property": "C65",
   "status": "partial",
   "theorems": [
    "Jess.all_envelopes_partial",
    "Jess.all_envelopes_refuted"
   ],
   "note": "REFUTED: one envelope with a suite that is not registered (or a damaged file) makes AllEnvelopes fail, although the code tries to list it as failed; proved: it succeeds exactly if all suites are registered, and is complete then"
  },
  {
   "property": "C66",
   "status": "proved",
   "theorems": [
    "Jess.uuid_permitted",
    "Jess.uuid_collision_iff",
    "Jess.generate_stores_pair",
    "Jess.generate_stores_secret",
    "Jess.generated_pair_stays",
    "Jess.generated_keys_work",
    "Jess.generate_example",
    "Jess.generated_use_example",
    "Jess.generate_settings_suffice",
    "Jess.generate_succeeds"
   ],
   "note": "for stores whose writes do not stop in the middle (see C34)"
  },
  {
   "property": "C67",
   "status": "partial",
   "theorems": [
    "Jess.generate_failure_partial",
    "Jess.generate_texts_import",
    "Jess.generate_refuted",
    "Jess.generate_not_atomic"
   ],
   "note": "REFUTED: (a) if the second write fails, a private signet stays without recipient although the command fails; (b) generate --textonly always fails for shared keys and passwords; (c) generate --scheme key --symkeysize -1 panics. Proved: the store is unchanged or has gained the private signet, a recipient is never stored without its private key; with --textonly nothing is stored and for tools both texts can be imported again"
  },
  {
   "property": "C68",
   "status": "partial",
   "theorems": [
    "Jess.wire_close_no_nonce",
    "Jess.wire_later_sends_read_nonce",
    "Jess.wire_first_close_no_key",
    "Jess.wire_close_repeats_partial",
    "Jess.wire_answer_lost",
    "Jess.wire_retry_refuted",
    "Jess.wire_lost_example"
   ],
   "note": "REFUTED: (a) if the generation of the key for the answer to the first letter fails, a signet without key stays in the pair and that party never sends again (Close panics); (b) a first letter to several recipients whose second key generation fails leaves a pair behind, so the answer to the repeated letter is rejected. Proved: all other failures of the source of random numbers leave the state untouched"
  },
  {
   "property": "C69",
   "status": "partial",
   "theorems": [
    "Jess.pick_shows_id",
    "Jess.pick_chosen_partial",
    "Jess.pick_done",
    "Jess.manage_deletes_chosen_partial",
    "Jess.manage_done",
    "Jess.pickMany_chosen",
    "Jess.select_chosen",
    "Jess.suite_lines",
    "Jess.suite_chosen",
    "Jess.manage_edits_chosen_partial",
    "Jess.manage_example",
    "Jess.manage_pair_refuted",
    "Jess.manage_blank_refuted",
    "Jess.manage_done_refuted",
    "Jess.manage_envelope_refuted",
    "Jess.manage_envelope_example",
    "Jess.choices_fit",
    "Jess.untouched_selection",
    "Jess.untouched_example"
   ],
   "note": "REFUTED: the terminal dialogs find the chosen entry again from the text of its line. (a) signet and recipient of a pair share the ID: choosing the private signet deletes the recipient; (b) an ID or envelope name with a blank selects another entry; (c) an entry whose line begins with Done ends the dialog. Proved: for entries with plain texts (one-word unique IDs, no line ends) every dialog acts on exactly the chosen entry, for every padding of the table"
  },
  {
   "property": "C70",
   "status": "proved",
   "theorems": [
    "Jess.configure_saves_usable",
    "Jess.edit_saves_usable",
    "Jess.usable_after_clean",
    "Jess.savable_reads_back",
    "Jess.saved_envelope_works",
    "Jess.configure_example",
    "Jess.configure_hypotheses",
    "Jess.configure_inline_lost",
    "Jess.presets_ask_for_all",
    "Jess.unsafe_shown"
   ],
   "note": "Every end of the dialog leaves the store unchanged, deletes the entry, or saves an envelope without key material that reads back and opens a session of at least the saved level, given passwords as strong as that level. Limit shown by configure_inline_lost: an envelope with an inline key (only a library user can store one) loses its key when edited and no longer opens a session"
  },
  {
   "property": "C71",
   "status": "partial",
   "theorems": [
    "Jess.configure_keeps_others_partial",
    "Jess.configure_blank_refuted",
    "Jess.configure_hypotheses",
    "Jess.configure_blank_name",
    "Jess.untouched_example"
   ],
   "note": "REFUTED: a new name is trimmed after the existence check, so configure \" x\" overwrites the existing envelope x (configure_blank_refuted). Proved: all signets and all envelopes other than the one with the (trimmed) name are unchanged, whatever the choices"
  },
  {
   "property": "C72",
   "status": "partial",
   "theorems": [
    "Jess.configure_no_panic_partial",
    "Jess.manage_signets_no_panic_partial",
    "Jess.manage_envelopes_no_panic_partial",
    "Jess.dir_dialogs_no_panic_partial",
    "Jess.dialogs_no_panic_example",
    "Jess.manage_crash_refuted",
    "Jess.long_name_crash_refuted",
    "Jess.long_name_example",
    "Jess.configure_crash_refuted"
   ],
   "note": "REFUTED: (a) a signet name with line ends makes blank lines in the list of jess manage, choosing one crashes (manage_crash_refuted); (b) a signet with a name of 64 KiB empties the list, and changing the signets of an envelope crashes (long_name_crash_refuted, for all stores and envelopes); (c) an envelope with an unknown suite in the keyring store crashes configure (configure_crash_refuted). Proved: with short texts without tabs and line ends and, outside directories, loaded suites, no history of choices crashes the three dialogs, and the store keeps satisfying the condition"
  },
  {
   "property": "C73",
   "status": "partial",
   "theorems": [
    "Jess.report_names_signers_partial",
    "Jess.letter_report_names_signers",
    "Jess.bulk_line_names_signers",
    "Jess.many_signatures_not_shown",
    "Jess.report_refuted",
    "Jess.report_example",
    "Jess.metadata_sorted",
    "Jess.report_result",
    "Jess.report_result_example"
   ],
   "note": "REFUTED: with three or more signatures the report of jess verify names no signer (many_signatures_not_shown, for all files); signed metadata with line ends adds lines that read like signers; a signer without information in the trust store crashes the command; a big letter the user declined to load is reported as OK in bulk mode (report_refuted). Proved: with at most two signatures and texts on one line, the \"Signed By\" lines of a successful report are exactly the signers of the verified signatures in order, with one \"Verification: OK\" per signature, the verified hashes, all signed metadata and the file names; letters and the bulk lines name exactly the signers of the verified signatures"
  },
  {
   "property": "C74",
   "status": "partial",
   "theorems": [
    "Jess.created_password_partial",
    "Jess.strong_password_created",
    "Jess.only_five_digits_sent",
    "Jess.same_request",
    "Jess.prompted_password_rated_partial",
    "Jess.prompt_good_passwords_partial",
    "Jess.password_refuted",
    "Jess.password_example",
    "Jess.created_password_used",
    "Jess.typed_password_opens_partial",
    "Jess.typed_password_example"
   ],
   "note": "REFUTED: an HTTP error page of the service counts as not compromised; a password of 169 characters accepted by the prompt is refused by the session (password_refuted). Proved: an accepted password reaches the demanded level, was typed twice, and if asked for, the answer was read completely and no line of it begins with the rest of the hash; at most one request is sent, after consent, with five hex digits of the hash; passwords in the floating point range keep the level in the session. Trusted: survey repeats a prompt until its validator accepts, SHA-1 has 20 bytes"
  },
  {
   "property": "C75",
   "status": "partial",
   "theorems": [
    "Jess.shared_store_partial",
    "Jess.prepared_signets_partial",
    "Jess.prepared_public_keys",
    "Jess.own_signets_safe",
    "Jess.loaded_signets_safe",
    "Jess.concurrent_outcome",
    "Jess.shared_store_refuted",
    "Jess.shared_example"
   ],
   "note": "REFUTED: while one session is between the two assignments of SetLoadedKeys, another session takes the signet as loaded, and signing fails or opening crashes with the private key missing (shared_store_refuted). Proved for every schedule of any number of sessions: preparing succeeds or fails as it does alone; public keys are always right; when no session is between the two assignments every session, letter and verification behaves as with a store of its own; signets of one session only (the directory store reads a fresh signet per session) and signets loaded before are never affected. Memory model: sequential consistency, one step per field access"
  },
  {
   "property": "C76",
   "status": "partial",
   "theorems": [
    "Jess.session_key_size",
    "Jess.registered_key_size",
    "Jess.tool_key_sizes",
    "Jess.password_key_size",
    "Jess.encapsulated_key_size",
    "Jess.close_password_keys",
    "Jess.open_other_settings_partial",
    "Jess.close_open_settings_partial",
    "Jess.key_size_refuted",
    "Jess.key_size_example"
   ],
   "note": "REFUTED: SetDefaultKeySize is documented as a fallback, but raises the key size of every session and thereby the size of password keys, which the letter does not record: a password letter closed after SetDefaultKeySize(64) is not opened under the default settings (key_size_refuted). Proved: the key size of every session is the largest one of its tools and the global setting; tools get keys and nonces of their sizes; letters without passwords, or with sizes up to 32 or equal, open under all settings that do not demand more security"
  },
  {
   "property": "C77",
   "status": "partial",
   "theorems": [
    "Jess.flags_trust_store",
    "Jess.flags_accepted",
    "Jess.seclevel_enforced",
    "Jess.symkeysize_applied",
    "Jess.no_flag_applied",
    "Jess.no_trust_store_partial",
    "Jess.no_trust_store_refuted",
    "Jess.flags_example"
   ],
   "note": "REFUTED: without a trust store export, backup and import crash, they do not check that there is one (no_trust_store_refuted). Proved: the trust store that is asked for is used or the command fails, there is no fallback to another one; the other global flags take effect on every session and letter; close and sign without a trust store fail and change nothing"
  },
  {
   "property": "C78",
   "status": "proved",
   "theorems": [
    "Jess.key_stream_disjoint",
    "Jess.key_stream_positions",
    "Jess.wire_close_keys",
    "Jess.encapsulation_fits",
    "Jess.key_stream_example"
   ],
   "note": "for every suite, also ones with several ciphers and MAC tools; wire sessions for the suites of the library"
  },
  {
   "property": "C79",
   "status": "partial",
   "theorems": [
    "Jess.bulk_report",
    "Jess.bulk_lines_partial",
    "Jess.bulk_lines_refuted",
    "Jess.bulk_report_example"
   ],
   "note": "REFUTED for the output as text: names of files are printed as they are, so a file whose name has a line end adds an OK line about any other file (bulk_lines_refuted; the command still fails). Proved: every line says something true, every visited path is on a line, the command succeeds exactly if all lines are OK lines; with names, signers and errors without line ends these are the lines of the output"
  },
  {
   "property": "C80",
   "status": "partial",
   "theorems": [
    "Jess.wire_memory_partial",
    "Jess.wire_memory_released_partial",
    "Jess.wire_reuse_refuted",
    "Jess.wire_memory_example"
   ],
   "note": "REFUTED: between opening the first letter and sending the first reply, a session still refers to the memory of the letter's keys; if the caller reuses it, the reply cannot be sent or not be opened (wire_reuse_refuted). Proved: while that memory is kept, sessions in memory do what the model on values says, whatever else the caller changes; they change no memory of the caller but the data of a letter that is opened; and the session refers to memory of the caller only until its first successful reply, or while an answer is awaited"
  },
  {
   "property": "C81",
   "status": "partial",
   "theorems": [
    "Jess.list_shows",
    "Jess.suite_dialog_shows",
    "Jess.signet_dialog_shows",
    "Jess.envelope_list_shows",
    "Jess.menu_shows",
    "Jess.signets_unambiguous_partial",
    "Jess.tools_listed",
    "Jess.table_shown",
    "Jess.signet_columns",
    "Jess.decimal_read",
    "Jess.attrs_shown",
    "Jess.attr_names_shown",
    "Jess.purpose_shown",
    "Jess.status_shown",
    "Jess.envelope_line_refuted",
    "Jess.lines_example",
    "Jess.list_shows_registered"
   ],
   "note": "REFUTED: envelopes are shown with the names, but not the IDs, of their signets, and names are not escaped: envelopes that go to different recipients look the same (envelope_line_refuted). Proved: `jess list` prints every registered suite, tool and hash tool exactly once with its attributes and level; the dialogs have one line for each suite, signet and envelope, in order, with the right name, kind, purpose, level, attributes and status; and if names have no commas and colons, an envelope's line tells the names of its secrets, recipients and senders. For texts without tabs and line ends of at most 5000 bytes"
  },
  {
   "property": "C82",
   "status": "partial",
   "theorems": [
    "Jess.tools_registered",
    "Jess.hash_tools_registered",
    "Jess.registration_order",
    "Jess.tool_names_true",
    "Jess.hash_names_true",
    "Jess.with_template",
    "Jess.hash_with_template",
    "Jess.recommended_registered",
    "Jess.pss_hash_named_partial",
    "Jess.pss_hash_refuted",
    "Jess.list_shows_registered"
   ],
   "note": "REFUTED: BLAKE2s-256 is registered with the crypto.Hash of BLAKE2b-256, so RSA-PSS(BLAKE2s-256) uses the parameters of another hash function (pss_hash_refuted). Proved: whatever the order of package initialisation and the sorting algorithm, Get and AsList give exactly the declared tools and hash tools (the tables that the other theorems use); names, key sizes, digest sizes, levels, curves and labeled hash algorithms agree; and for every other hash tool the crypto.Hash is the right one or (BLAKE3) none"
  },
  {
   "property": "C83",
   "status": "partial",
   "theorems": [
    "Jess.burn_effect_partial",
    "Jess.burn_unsupported",
    "Jess.burn_stored_partial",
    "Jess.memLoad_spec",
    "Jess.generated_keys",
    "Jess.recipient_keys",
    "Jess.burn_recipient_partial",
    "Jess.burn_recipient_refuted",
    "Jess.burn_refuted",
    "Jess.burn_example",
    "Jess.secrets_have_no_recipient",
    "Jess.plain_ed25519_burned"
   ],
   "note": "REFUTED: Signet.Burn returns no error and leaves X25519 and Ed25519 private keys as they are (burn_refuted, burn_effect_partial), the stored key of RSA, X25519 and Ed25519 signets stays complete (burn_stored_partial), and burning the public copy of an RSA signet (AsRecipient) destroys the modulus of the original (burn_recipient_refuted). Proved: private keys of NIST curves are overwritten, in the stored key as well, which afterwards loads as a key of 0xFF; all numbers of a loaded RSA key become zero; nothing else in memory changes; schemes without key tools give an error. The README documents secure deletion as a known issue"
  },
  {
   "property": "C84",
   "status": "proved",
   "theorems": [
    "Jess.library_session",
    "Jess.close_shape",
    "Jess.closed_letter_bound",
    "Jess.opened_data_authentic",
    "Jess.library_letter_example"
   ],
   "note": "For envelopes of callers, whose suite is always looked up by ID, and at most 16 secrets and recipients together: the limit of C05. The cipher, signature and MAC algorithms are abstract; that a secret key authenticates what it sealed is the hypothesis hauth"
  },
  {
   "property": "C85",
   "status": "proved",
   "theorems": [
    "Jess.received_bytes_do_not_crash",
    "Jess.dir_own_entries",
    "Jess.dir_world_sound",
    "Jess.received_example"
   ],
   "note": "Assumes that the cryptographic libraries and dsd do not panic (Prims.NoPanic, Dsd.NoPanic) and that the trust store is used only through its API; letters parsed from JSON or CBOR and other stores are C26"
  },
  {
   "property": "C86",
   "status": "proved",
   "theorems": [
    "Jess.closed_letter_has",
    "Jess.registry_tools",
    "Jess.closing_labels",
    "Jess.sign_labels",
    "Jess.closed_letter_has_example"
   ],
   "note": "For envelopes of callers, whose suite is always looked up by ID. What the AEAD cipher, the signatures and the key derivation achieve is the library's; the theorem says that they are applied, to what, and under which keys"
  },
  {
   "property": "C87",
   "status": "proved",
   "theorems": [
    "Jess.closed_with_all_secrets",
    "Jess.closing_fails_without_secret",
    "Jess.opened_with_all_secrets",
    "Jess.closing_pairs",
    "Jess.opening_pairs",
    "Jess.key_secrets_example"
   ],
   "note": "For the suites of the library (callers cannot add others). Key derivation, password hashing, key exchange and encapsulation are abstract functions"
  },
  {
   "property": "C88",
   "status": "proved",
   "theorems": [
    "Jess.exchange_works",
    "Jess.importDir_is_command",
    "Jess.export_import_stores",
    "Jess.two_stores_work",
    "Jess.toyDsd_plain",
    "Jess.exchange_example"
   ],
   "note": "Directory stores whose writes end normally or are refused; the serialization library reads back what it writes (Dsd.Sound) and fills only exported fields (Dsd.Plain); correct primitives; the condition of C10 on the security level"
  },
  {
   "property": "C89",
   "status": "proved",
   "theorems": [
    "Jess.session_keys_burned",
    "Jess.wire_keys_burned",
    "Jess.run_burned",
    "Jess.close_burned",
    "Jess.open_burned",
    "Jess.verify_burned",
    "Jess.keys_burned_example"
   ],
   "note": "For sessions of the library's suites. Assumes that the key derivation does not fail within its first 8160 bytes (the limit of HKDF), and for wire sessions that keys are shorter than 8000 bytes. Copies inside the cipher objects of the Go libraries, and copies the Go runtime makes, are not modelled; signets of participants are C83"
  },
  {
   "property": "C90",
   "status": "proved",
   "theorems": [
    "Jess.opens_only_with_all_secrets",
    "Jess.wrong_shared_key_rejected",
    "Jess.wrong_password_rejected",
    "Jess.wrong_private_key_rejected",
    "Jess.opener_participants",
    "Jess.openPrims_holds",
    "Jess.openPrims_sizes",
    "Jess.openPrims_password",
    "Jess.only_with_example",
    "Jess.only_with_runs"
   ],
   "note": "What the cryptography has to achieve is a hypothesis about this one letter and this one opener: if its data opens with the key the opener derives, that is the key it was closed with, derived from the same material (HoldsAgainst), and for passwords that the other password derives another key (OtherPassword); nothing is assumed about other inputs; keys derived from passwords and established keys have fixed lengths, and shared keys under the same ID have the same length (without that the derivation input is ambiguous, see C48). Participants have IDs (seals without an ID are skipped when opening)"
  },
  {
   "property": "C91",
   "status": "proved",
   "theorems": [
    "Jess.file_arrives",
    "Jess.exchange_stores",
    "Jess.stored_counterparts",
    "Jess.file_arrives_example"
   ],
   "note": "Composition of C61, C66 and C88. Directory stores whose writes end normally or are refused; the serialization libraries read back what they write; correct primitives; the condition of C10 on the security level; letters shorter than 2^64 bytes"
  },
  {
   "property": "C92",
   "status": "proved",
   "theorems": [
    "Jess.close_uses_suite_only",
    "Jess.open_uses_suite_only",
    "Jess.verify_uses_suite_only",
    "Jess.suite_isolated",
    "Jess.isolated_example",
    "Jess.wire_isolated",
    "Jess.wire_isolated_example"
   ],
   "note": "For sessions of letters (all suites) and wire sessions (registered suites, every history of letters sent and received); the creation of the session is done with one of the libraries"
  },
  {
   "property": "C93",
   "status": "proved",
   "theorems": [
    "Jess.required_available",
    "Jess.key_methods_available",
    "Jess.correspondence_available",
    "Jess.close_available",
    "Jess.open_available",
    "Jess.letter_open_available",
    "Jess.letter_verify_available",
    "Jess.generate_available",
    "Jess.dispatched_same",
    "Jess.dispatch_never_fails",
    "Jess.dispatch_example",
    "Jess.wireCorrespondence_available",
    "Jess.wire_history_available",
    "Jess.wire_dispatch_never_fails",
    "Jess.wire_dispatch_example",
    "Jess.methods_table",
    "Jess.implements_exactly"
   ],
   "note": "The table of overridden methods is transcribed from the Go files (Model/Methods). For sessions of letters, keys and wire sessions"
  },
  {
   "property": "C94",
   "status": "proved",
   "theorems": [
    "Jess.close_draws",
    "Jess.ephemeral_keys_differ",
    "Jess.toy_draws_differ",
    "Jess.draws_example",
    "Jess.wire_draws",
    "Jess.wire_keys_differ",
    "Jess.wire_draws_example"
   ],
   "note": "For envelopes of callers (suite looked up by ID). The draws are those of the random source of the application: nonce, key pairs for recipients, signatures. Wire sessions: for every letter a party sends at any point of any history"
  },
  {
   "property": "C95",
   "status": "proved",
   "theorems": [
    "Jess.signed_file_verifies",
    "Jess.sender_ids",
    "Jess.signed_file_verifies_example"
   ],
   "note": "Composition of C42, C66, C73 and C88. Directory stores whose writes end normally or are refused; the serialization libraries read back what they write; correct primitives; the condition of C10 on the security level"
  },
  {
   "property": "C96",
   "status": "proved",
   "theorems": [
    "Jess.conversation_works",
    "Jess.session_recipients_length",
    "Jess.conversation_example"
   ],
   "note": "Composition of C58, C66 and C88. Both directions, byte streams, any interleaving of successful sends and receipts. Envelopes with recipients only; nothing is longer than 2^64 bytes; correct primitives; serialization libraries read back what they write; the condition of C10 on the security level"
  },
  {
   "property": "C97",
   "status": "proved",
   "theorems": [
    "Jess.password_file_opens",
    "Jess.wrong_password_no_output",
    "Jess.passwords_session",
    "Jess.created_secrets",
    "Jess.openPrims_correct",
    "Jess.password_file_example"
   ],
   "note": "Composition of C61, C74 and C90. What the cryptography has to achieve for a wrong password is a hypothesis about this letter and this opener (HoldsAgainst, OtherPassword)"
  },
  {
   "property": "C98",
   "status": "proved",
   "theorems": [
    "Jess.envelope_uses_named",
    "Jess.letter_uses_named",
    "Jess.history_keeps_letter",
    "Jess.history_keeps_envelope",
    "Jess.history_example"
   ],
   "note": "Any letters and envelopes. Histories: directory trust store, operations ending in any way including crashes in a write, no other program writing to the directory (see C34)"
  },
  {
   "property": "C99",
   "status": "proved",
   "theorems": [
    "Jess.text_restores",
    "Jess.envelope_text_restores",
    "Jess.restore_entries",
    "Jess.restored_store_works",
    "Jess.restore_example"
   ],
   "note": "With Signet.Backup and Export of the API and jess import (the command jess backup is broken, see C56). Shared keys can not be restored (C28 refuted part: their import fails). Directory stores whose writes end normally or are refused; the serialization library reads back what it writes (Dsd.Sound) and fills only exported fields (Dsd.Plain); envelopes with references only"
  },
  {
   "property": "C100",
   "status": "proved",
   "theorems": [
    "Jess.first_letter_only_with_keys",
    "Jess.wire_wrong_key_rejected",
    "Jess.first_close",
    "Jess.first_open",
    "Jess.openPrims_holds_wire",
    "Jess.wire_only_with_runs",
    "Jess.wire_only_with_example"
   ],
   "note": "First letters of wire sessions from registered suites, recipients referred to by ID. That the cryptography holds (HoldsOnWire: key derivation and cipher, for this letter and this server) is a hypothesis, not proved; the size assumptions on derived keys (SecretSizes) are facts of the primitives"
  },
  {
   "property": "C101",
   "status": "proved",
   "theorems": [
    "Jess.json_checksum_iff",
    "Jess.json_signature_sound",
    "Jess.json_change_detected",
    "Jess.json_verdict_invariant",
    "Jess.json_example",
    "Jess.json_file_example",
    "Jess.toyJson_sound",
    "Jess.base64_accepts"
   ],
   "note": "The verifying half of C43. gjson, sjson and pretty are abstract with the laws of JsonLib.Sound (met by toyJson); that the hash distinguishes the two contents is a hypothesis about these two contents. Order independence for documents without duplicate keys."
  },
  {
   "property": "C102",
   "status": "proved",
   "theorems": [
    "Jess.dir_select_complete",
    "Jess.dir_select_files",
    "Jess.passes_iff",
    "Jess.dir_store_example"
   ],
   "note": "The directory half of C31 (the in-memory store is refuted there). dsd abstract (Dsd.Sound, met by toyDsd); names of at most 255 bytes and whole operations as in C33."
  },
  {
   "property": "C103",
   "status": "proved",
   "theorems": [
    "Jess.key_round_trip",
    "Jess.public_never_private",
    "Jess.load_x25519_iff",
    "Jess.load_ed25519_iff",
    "Jess.load_nist_iff",
    "Jess.key_version_checked",
    "Jess.load_total",
    "Jess.generate_never_overwrites",
    "Jess.signet_key_round_trip",
    "Jess.keyKind_tools",
    "Jess.toyLib_sound",
    "Jess.toyCodec_uses",
    "Jess.keyPair_examples",
    "Jess.signet_key_example"
   ],
   "note": "C29 without the rejection of truncated NIST private keys, which is refuted there (load_nist_iff says what is accepted). Curve and RSA functions of the standard library abstract (KeyLib.Sound, met by toyLib)."
  },
  {
   "property": "C104",
   "status": "proved",
   "theorems": [
    "Jess.keyring_store_is_map",
    "Jess.keyring_example"
   ],
   "note": "The refinement half of C57. Getting includes loading the key, which fails for shared keys and passwords (see C57); the specification map loads as well."
  },
  {
   "property": "C105",
   "status": "proved",
   "theorems": [
    "Jess.flags_trust_store",
    "Jess.flags_accepted",
    "Jess.seclevel_enforced",
    "Jess.symkeysize_applied",
    "Jess.no_flag_applied",
    "Jess.flags_example"
   ],
   "note": "C77 without the commands that need a trust store and have none (refuted there). MeetsLevel is the specification of C17 (levels 0 mean not applicable)."
  },
  {
   "property": "C106",
   "status": "proved",
   "theorems": [
    "Jess.bulk_report",
    "Jess.bulk_report_example"
   ],
   "note": "C79 up to the text: a file name with a line end can make one entry look like two lines (refuted there). A big letter that the user declines to load is reported OK (see C44, C73): the specification of verified says so."
  },
  {
   "property": "C107",
   "status": "proved",
   "theorems": [
    "Jess.bulk_verify_directory",
    "Jess.bulk_verify_tree",
    "Jess.bulk_example"
   ],
   "note": "C44 for the argument being one directory. The walk is the one of filepath.Walk: lexical order, unreadable entries reported once."
  },
  {
   "property": "C108",
   "status": "proved",
   "theorems": [
    "Jess.close_keeps_data",
    "Jess.close_memory",
    "Jess.close_stream_example",
    "Jess.toyPrims_sizes"
   ],
   "note": "The closing half of C49 (opening is refuted there). Remark: with a stream cipher, which no suite of the library uses, the data is overwritten if its slice has no spare capacity (close_stream_example)."
  },
  {
   "property": "C109",
   "status": "proved",
   "theorems": [
    "Jess.tools_registered",
    "Jess.hash_tools_registered",
    "Jess.registration_order",
    "Jess.tool_names_true",
    "Jess.hash_names_true",
    "Jess.with_template",
    "Jess.hash_with_template",
    "Jess.recommended_registered"
   ],
   "note": "C82 without the crypto.Hash identifier (refuted there for one hash tool). The statements about names are about the finite tables of the code, so they are settled by evaluation; those about orders and sorting are for all of them."
  },
  {
   "property": "C110",
   "status": "proved",
   "theorems": [
    "Jess.list_shows",
    "Jess.list_shows_registered",
    "Jess.tools_listed",
    "Jess.table_shown",
    "Jess.attrs_shown",
    "Jess.attr_names_shown",
    "Jess.purpose_shown",
    "Jess.status_shown",
    "Jess.decimal_read"
   ],
   "note": "The jess list part of C81. text/tabwriter is trusted to fill each column with blanks (FillsColumns)."
  },
  {
   "property": "C111",
   "status": "proved",
   "theorems": [
    "Jess.text_shape",
    "Jess.kinds_exclusive",
    "Jess.text_parses",
    "Jess.backup_round_trip",
    "Jess.export_round_trip",
    "Jess.envelope_text_round_trip",
    "Jess.import_dispatch",
    "Jess.import_of_parsed",
    "Jess.toyDsd_sound",
    "Jess.text_example",
    "Jess.text_name_chars",
    "Jess.text_name_kept",
    "Jess.text_name_example",
    "Jess.Formats.backup_round_trip_real",
    "Jess.Formats.export_round_trip_real",
    "Jess.Formats.envelope_text_round_trip_real",
    "Jess.Formats.realDsd_sound"
   ],
   "note": "C28 without shared keys and passwords (refuted there). dsd abstract (Dsd.Sound, met by toyDsd and by the real formats: Formats.*_real for UTF-8 texts, others are refuted in C28 and C114), base58 modelled; hypotheses UsesCodec and KeyLib.Sound met by toyCodec/toyLib."
  },
  {
   "property": "C112",
   "status": "proved",
   "theorems": [
    "Jess.only_five_digits_sent",
    "Jess.same_request",
    "Jess.password_example"
   ],
   "note": "The secrecy part of C74. SHA-1 abstract."
  },
  {
   "property": "C113",
   "status": "proved",
   "theorems": [
    "Jess.session_key_size",
    "Jess.registered_key_size",
    "Jess.tool_key_sizes",
    "Jess.password_key_size",
    "Jess.encapsulated_key_size",
    "Jess.close_password_keys",
    "Jess.key_size_example"
   ],
   "note": "The first half of C76 (the second is refuted there). Hypothesis KdfSizes (a key derivation gives as many bytes as asked for) met by toyPrims."
  },
  {
   "property": "C114",
   "status": "partial",
   "theorems": [
    "Jess.Formats.letter_file_survives",
    "Jess.Formats.letter_cbor_survives",
    "Jess.Formats.signed_data_survives",
    "Jess.Formats.signet_file_survives",
    "Jess.Formats.signet_cbor_survives",
    "Jess.Formats.envelope_file_survives",
    "Jess.Formats.envelope_cbor_survives",
    "Jess.Formats.formats_meet_assumptions",
    "Jess.Formats.realDsd_noPanic",
    "Jess.Formats.header_read",
    "Jess.Formats.header_survives_iff",
    "Jess.Formats.letter_cbor_iff",
    "Jess.Formats.signet_cbor_iff",
    "Jess.Formats.envelope_cbor_iff",
    "Jess.Formats.signet_file_read",
    "Jess.Formats.envelope_file_read",
    "Jess.Formats.text_not_importable",
    "Jess.Formats.text_not_importable_example",
    "Jess.Formats.letter_formats_example",
    "Jess.Formats.header_bytes_example",
    "Jess.Formats.formats_example",
    "Jess.Formats.closed_letter_text",
    "Jess.Formats.closed_letter_survives",
    "Jess.Formats.closed_letter_lost",
    "Jess.Formats.closed_letter_text_example",
    "Jess.Formats.b64Padded_length",
    "Jess.Formats.dir_store_get_real",
    "Jess.Formats.dir_store_real_example",
    "Jess.Formats.dir_history_real_example",
    "Jess.Formats.utf8_iff",
    "Jess.Formats.text_unchanged_iff",
    "Jess.Formats.text_fixed",
    "Jess.Formats.utf8_example",
    "Jess.Formats.letter_json_read",
    "Jess.Formats.letter_json_survives_iff",
    "Jess.Formats.letter_json_one_line",
    "Jess.Formats.letter_json_example"
   ],
   "note": "Proved for all structures with UTF-8 texts, all bytes elsewhere (and for file data whatever its texts are). REFUTED for texts that are not UTF-8: letter headers and store files are written and read back changed (header_survives_iff, signet_file_read, closed_letter_lost), CBOR and text backups are written but can not be read (letter_cbor_iff, signet_cbor_iff, text_not_importable)."
  },
  {
   "property": "C115",
   "status": "partial",
   "theorems": [
    "Jess.start_panics_iff",
    "Jess.shown_version",
    "Jess.shown_version_kept",
    "Jess.version_says",
    "Jess.settingOf_last",
    "Jess.LastSetting.unique",
    "Jess.unknown_is_clean",
    "Jess.version_example"
   ],
   "note": "Proved for binaries with build info. REFUTED for binaries without it (built without module support): every command crashes in init, before its arguments are read (start_panics_iff). Finding: without VCS settings the commit is empty and called clean (unknown_is_clean)."
  },
  {
   "property": "C116",
   "status": "proved",
   "theorems": [
    "Jess.keyring_stores_separate",
    "Jess.keyring_open_example"
   ],
   "note": "The keyring of the system (go-keyring) is trusted to keep entries by service and key; its failures are inputs."
  },
  {
   "property": "C117",
   "status": "proved",
   "theorems": [
    "Jess.Formats.letter_json_reread",
    "Jess.Formats.letter_reread",
    "Jess.Formats.signet_reread",
    "Jess.Formats.envelope_reread",
    "Jess.Formats.reread_example"
   ],
   "note": "MsgPack (which the library never writes for these structures, but would read) is left out: the reader of the model does not read letters, signets and envelopes from it. CBOR for slices below 2^64 bytes."
  },
  {
   "property": "C118",
   "status": "partial",
   "theorems": [
    "Jess.checked_envelope_closes_partial",
    "Jess.checked_envelope_again",
    "Jess.check_passes_unusable",
    "Jess.check_example"
   ],
   "note": "The code refutes the first half: the check ignores empty passwords, empty raw keys and senders without private keys (check_passes_unusable). The proved part says that these are the only reasons: with working algorithms and random numbers, closing succeeds if and only if none of the three holds (checked_envelope_closes_partial). Using it again is proved for envelopes in which no signet is left empty (checked_envelope_again). The key-encapsulation tool is in no registered suite."
  },
  {
   "property": "C119",
   "status": "proved",
   "theorems": [
    "Jess.accepted_exactly",
    "Jess.correspondence_exactly",
    "Jess.fits_accepted",
    "Jess.accepted_fits",
    "Jess.accepted_example"
   ],
   "note": "Fits in Props/Accepted is the specification; demandedLevel is the global minimum if set, else the level of the envelope if set, else the default. Empty passwords and keys are not rated by the code, and the specification says so; a key of an empty envelope is refused only when closing (C118)."
  },
  {
   "property": "C120",
   "status": "proved",
   "theorems": [
    "Jess.letters_are_delivered",
    "Jess.deliver_example",
    "Jess.fits_accepted",
    "Jess.close_iff",
    "Jess.two_stores_work",
    "Jess.secret_letters_are_delivered",
    "Jess.secret_example",
    "Jess.files_are_delivered",
    "Jess.secret_files_are_delivered",
    "Jess.deliver_files_example",
    "Jess.exchange_delivers",
    "Jess.exchange_delivers_example",
    "Jess.strangers_can_write",
    "Jess.exchange_succeeds",
    "Jess.dir_store_succeeds",
    "Jess.toyDsd_rewrites"
   ],
   "note": "No step is assumed to succeed: acceptance is C119, closing C118, opening C1 and C88. Signet protection is not implemented in the code, so the stored signets are unprotected."
  },
  {
   "property": "C121",
   "status": "proved",
   "theorems": [
    "Jess.signatures_are_delivered",
    "Jess.signed_files_are_verified",
    "Jess.deliver_sig_example",
    "Jess.addressed_senders",
    "Jess.sign_verify_file_partial",
    "Jess.sign_verify_commands_partial"
   ],
   "note": "For the suites that only sign (for others C42 is refuted) and signature files without an incomplete block (C42). Nothing is assumed to succeed: the session is C119, closing C118, verification C42 and C61."
  },
  {
   "property": "C122",
   "status": "proved",
   "theorems": [
    "Jess.letters_from_nothing",
    "Jess.letters_from_nothing_example",
    "Jess.generate_succeeds",
    "Jess.exchange_succeeds",
    "Jess.strangers_can_write",
    "Jess.dir_store_succeeds",
    "Jess.uuidText_permitted"
   ],
   "note": "No step is assumed to succeed. Given are the algorithms (what they make, they use), the serializer (what it writes, it reads, and what it reads, it writes), the source of random numbers, and that writing a file in an existing directory succeeds."
  },
  {
   "property": "C123",
   "status": "proved",
   "theorems": [
    "Jess.signatures_from_nothing",
    "Jess.signatures_from_nothing_example",
    "Jess.generate_succeeds",
    "Jess.exchange_succeeds",
    "Jess.signed_files_are_verified"
   ],
   "note": "No step is assumed to succeed. Given are the algorithms, the serializers, the source of random numbers, that writing in an existing directory succeeds, and that the verifier's stored signets have an info section (C42, C61)."
  },
  {
   "property": "C124",
   "status": "proved",
   "theorems": [
    "Jess.wire_never_stuck",
    "Jess.wire_never_stuck_example",
    "Jess.wire_in_order_delivery"
   ],
   "note": "Given are the algorithms (C20), a source of random numbers that delivers, a tool whose generated private keys can be stored, and a default security with keys of at most 8000 bytes."
  },
  {
   "property": "C125",
   "status": "proved",
   "theorems": [
    "Jess.conversation_from_nothing",
    "Jess.conversation_from_nothing_example",
    "Jess.wire_starts",
    "Jess.stream_never_stuck",
    "Jess.stores_private",
    "Jess.stream_drains"
   ],
   "note": "No step is assumed to succeed. Given are the algorithms, the serializers, sources of random numbers that deliver, that writing in an existing directory succeeds, and a default security with keys of at most 8000 bytes."
  }
 ]
}
