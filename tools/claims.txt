# property | status | theorems (without the Jess. prefix) | note
C01 | proved | wire_roundtrip wire_roundtrip_exact wire_too_many_seals | round trip for up to 255 seals and any trailing data; letters with more seals are proved to be always rejected by the parser
C02 | proved | wire_unambiguous | for any two letters and any trailing data
C03 | proved | wire_parse_sound wire_parse_no_panic wire_parse_append wire_truncation_rejected wire_version_rejected wire_parse_iff | all inputs
C04 | proved | file_roundtrip file_dump_error file_parse_sound file_dump_error_loses_data Formats.letter_file_survives Formats.closed_letter_survives Formats.letter_formats_example | the header serializer (dsd) is an abstract codec in the first theorems and the real JSON one in the Formats theorems (UTF-8 texts, see C114); file_dump_error_loses_data is a finding
C05 | partial | ad_binds_partial ad_collision | REFUTED as stated: ad_collision exhibits two letters with 17 and more key seals and equal associated data. Proved: bound as soon as one of the two letters has at most 16 key seals
C06 | partial | applyKeys_not_authenticated | REFUTED: ApplyKeys is documented as MAC'd but is not part of the associated data of any letter
C07 | partial | signing_data_binds_partial signing_data_collision | REFUTED as stated: letters with 17 key seals, different seals and the same signing data (signing_data_collision; same cause as C05). Proved if one of the two letters has at most 16 key seals
C08 | partial | signature_binds_partial signature_binds_same_suite signature_boundary_collision | REFUTED as stated: signature_boundary_collision moves metadata bytes into the data. Proved: same-length associated data / same signed prefix cases
C09 | proved | compliance_iff compliance_error_iff mem_add mem_remove built_nodup parse_iff noSpec_roundtrip | all requirement sets, all strings
C16 | proved | session_provides session_no_confidentiality_without_integrity session_kdf session_tools_have_signets library_key_source session_without_key_source | Proved for every session of the API (library_key_source; only the registered suites can be reached, registerSuite and Envelope.suite are not exported); everything but the key source for all suites. Remark: a suite that only the package itself could register, with keyed and signing tools and without recipient authentication, would have no key source (session_without_key_source).
C17 | partial | min_level_enforced acceptance_antitone set_minimum_antitone minimum_overrides_envelope rsa_hash_not_rated empty_key_accepted session_example set_minimum_off set_minimum_example | Proved for everything whose level is applicable (levels 0 mean not applicable) and monotone in the demanded level. REFUTED in three details: hash functions of RSA tools are not rated, empty key secrets are accepted, a global minimum overrides a higher envelope level.
C18 | proved | no_signet_ignored no_signet_ignored_registered recipient_ignored | For every registered suite without conditions, for custom suites if tool names are distinct; recipient_ignored shows that this condition is needed.
C19 | proved | registered_suites_sound registered_ids_unique recommended_suites_exist register_keeps register_new register_nodup getSuite_sound tool_id_read registered_tools_sound | 
C11 | proved | session_reusable session_reusable_example | any session, any finite history of Close/Open/Verify operations (with any results) followed by an operation: the result is that of a new session; includes Poly1305 key reuse guards and managed hashers
C53 | proved | nonce_size close_nonce wire_close_nonce distinct_draws_distinct_keys wire_close_authenticates wire_distinct_keys nonce_example | size for every session; the nonce of every letter (also of wire sessions) is its own draw from the random source; letters with different draws are encrypted with different keys, or the key derivation has an explicit collision (no hypothesis on it). Quality of the random source: C45
C10 | partial | close_open_roundtrip_partial close_open_general toyPrims_correct roundtrip_example key_and_password_spill anonymous_signet_not_openable lowered_level_not_openable | Proved for every registered suite (general form for custom suites), every data, randomness, trust store with the counterparts, and functionally correct primitives, under three conditions that are shown to be needed: no mix of key and password secrets (REFUTED otherwise: key_and_password_spill), every signet has an ID (anonymous_signet_not_openable), the envelope does not lower the security level (lowered_level_not_openable)
C13 | proved | open_sender_authenticated open_verifies_signatures verify_needs_signature open_example toyWorld_keeps | registered suites, all letters, all trust stores and callbacks (that keep the scheme of the signet they are asked to fill)
C14 | proved | verify_needs_signature open_example session_verify_needs_signature session_verify_example | all letters
C15 | proved | requirements_enforced nil_requires_all missing_requirement_rejected | all letters, requirement sets and suite registries
C50 | partial | signets_prepared signets_prepared_closing key_and_password_spill nameFromStore_shown ShownAs.unique | REFUTED as stated: key_and_password_spill (a password after a shared key is asked for with the create callback when opening). Proved for all lists where no signet follows a stub of a shared key, and for closing
C52 | partial | level_kept_openable_partial lowered_level_not_openable | REFUTED: lowered_level_not_openable. Proved: levels that are not lowered
C12 | partial | open_authenticates close_authenticates tampering_detected_partial tampering_example tampering_refuted ad_collision | REFUTED beyond 16 key seals: with an ideal cipher, a letter closed with 19 shared keys and a modified one with other key seals both open (tampering_refuted). Proved: registered suites that encrypt, honestly closed letters with at most 16 key seals (the opened letter with any number), that the letter's data is not a forgery under the key with which it is opened is an explicit hypothesis, about this letter only. Signed-only letters: see C13 and C08
C26 | partial | letters_do_not_panic_partial parsed_letters_do_not_panic null_seal_panics null_seal_example toyPrims_noPanic toyWorld_sound wire_open_no_panic_partial wire_open_panics wire_no_panic_example wire_open_panics_example | Letter.Open and Letter.Verify: proved for all letters whose seals are present; REFUTED for parsed letters with null seals (null_seal_panics). Wire Open: proved for every session that has sent or accepted its first letter, after any history; REFUTED for sessions that have done neither (wire_open_panics: every letter without keys panics)
C51 | proved | library_close_establishes library_close_fails library_open_establishes wire_first_close_establishes wire_first_open_establishes wire_answer_establishes wire_answer_accepted_establishes establish_example close_establishes open_establishes failure_of_first_tool_ignored failure_example | Proved for every session of the API (registered suites), for letters and for wire sessions (first letter, answer and its acceptance, in any state); general form for all suites with at most one key exchange and one key encapsulation tool. Remark: in a suite with two key exchange tools, which only the package itself could register, the failure of the first is ignored (failure_of_first_tool_ignored).
C20 | proved | wire_in_order_delivery wire_delivery_example | both parties, any interleaving of successful sends and in-order receipts, any random numbers; letters are handed over as values (C01 covers their serialization). A send that fails half-way (exhausted randomness) is C68
C21 | proved | wire_accepts_in_order wire_accepts_once wire_order_example replaced_letter_refuted | For an unreliable network (drops, duplicates, reorders the letters of the peer): what a party accepts is a prefix of what the peer sent, in both directions, whatever the schedule. Against an active attacker: a subsequence (never twice, never out of order); replaced_letter_refuted shows that an attacker who replaces a letter's data can make its successor be accepted although the letter was rejected. Ideal crypto is a condition on the values of the conversation (NoBreak), random nonces of a party differ. A party's own letters coming back are C54
C22 | partial | message_keys_distinct_partial old_letters_safe_partial wire_keys_example same_key_both_directions_refuted sent_keys_recomputable_refuted | REFUTED in both halves: answer and apply letter of the handshake are derived from the same material, so with equal random nonces they are protected with the same key and cipher nonce; and the client's letters before the server's answer can be recomputed from its state (in every conversation). Proved: letters of one party never share a key, letters of both parties do not unless their nonces are equal; once a party has sent and accepted a letter, nothing derived from the keys it holds opens its earlier letters (of both directions)
C23 | partial | wire_never_rekeys wire_rekey_example wire_first_letter_keys_partial | REFUTED: in every history of a party at most one letter with keys is sent, however many messages follow; wire_rekey_example is a history past the limit. Proved: the first letter carries keys
C24 | partial | any_letter_advances forged_letter_breaks_session letter_without_nonce_partial | REFUTED: a rejected letter with any nonce replaces the receiving key, the genuine next letter is then rejected. Proved: a letter without nonce changes nothing
C25 | proved | wire_correspondence_iff wire_session_material wire_letter_material wire_refuses_example | exact characterisation, for all envelopes; for the library's suites there are no secrets and senders at all
C54 | partial | client_accepts_own_letter server_accepts_own_letter reflection_example | REFUTED: for all primitives that work, both sides accept a letter of their own that is reflected to them
C36 | proved | lhash_load_iff lhash_round_trip lhash_text_round_trip lhash_rejects_trailing lhash_load_total lhash_equal_iff lhash_digest_valid lhash_matches_iff lhash_digest_matches toyHashes_sized lhash_example lhash_equalRaw_iff lhash_text_sound base64_accepts hex_accepts base58_accepts text_codes_example | for all hash functions (the registered tags and sizes), all data and all byte strings
C37 | partial | password_rejected_iff password_unlisted_rejected password_level_bound_partial password_monotone_partial long_password_rejected iterations_lower_rating | REFUTED for long passwords: from about 172 characters of a pool of 62 the estimate overflows floating point and is -2^63. Proved for all passwords below that; rejection is characterised for all passwords. Floating point rounding is idealised
C45 | proved | random_bytes_complete first_rng_wins callbacks_stay first_callback_wins nil_rng_stays | sequential callers; finding: a nil reader is accepted and stays; see C55 for concurrent callers
C46 | partial | rsa_level_exact rsa_key_size_provides_partial rsa_key_size_sufficient_partial rsa_key_size_monotone_partial rsa_level_monotone rsa_high_level_weak_key | REFUTED above level 256 (key size 256 bits); proved for all levels up to 256
C47 | proved | poly_one_mac_per_setup poly_mac_key session_mac_is_poly poly_example poly_reset_burns | all call sequences; that two Setups fetch different keys is the key derivation's property
C48 | partial | material_ambiguous material_unambiguous_partial split_keys_open split_keys_example | REFUTED: material is concatenated, so sessions with other keys of the same concatenation open the same letters; unambiguous if the lengths are fixed
C55 | partial | concurrent_rng_replaced concurrent_rng_partial | REFUTED with a concrete schedule (check and assignment are not atomic); what remains holds for all schedules
C27 | partial | recipient_is_public recipient_determined export_no_secrets secrets_not_exported envelope_no_secrets public_flag_leaks text_example dir_envelope_keeps_secrets | proved as non-interference for signets without the public flag and for cleaned envelopes; REFUTED for a signet flagged public whose stored key has private bytes (public_flag_leaks); REFUTED for envelopes written by the directory store
C28 | partial | text_shape kinds_exclusive text_parses backup_round_trip export_round_trip envelope_text_round_trip key_backup_lost export_import_partial toyDsd_sound text_example import_dispatch import_of_parsed text_name_chars text_name_kept text_name_example Formats.backup_round_trip_real Formats.export_round_trip_real Formats.envelope_text_round_trip_real Formats.text_not_importable Formats.text_not_importable_example | round trip for signing and exchange signets and envelopes, for every name (with the real formats: every UTF-8 name); REFUTED for key and password signets, whose backup can not be loaded again (key_backup_lost), and for names that are not UTF-8, whose text no parser accepts (Formats.text_not_importable)
C29 | partial | key_round_trip public_never_private load_x25519_iff load_ed25519_iff load_nist_iff key_version_checked load_total generate_never_overwrites signet_key_round_trip keyKind_tools nist_truncated_accepted ed25519_public_restore toyLib_sound toyCodec_uses keyPair_examples signet_key_example | all clauses but one; REFUTED: malformed NIST keys (cut off after the public part) are accepted as private keys (nist_truncated_accepted)
C56 | partial | backup_command_broken | REFUTED: the check is inverted, no stored signet is ever backed up and a missing one crashes the command
C30 | proved | mem_store_is_map mem_store_no_shadow storageID_inj mem_store_example | all sequences, including changes of stored signets from outside; operations hold the mutex
C31 | partial | dir_select_complete mem_select_incomplete mem_select_partial passes_iff mem_select_example dir_store_example dir_select_files | proved for the directory store; REFUTED for the in-memory store: one signet of another scheme makes the selection empty
C32 | proved | dir_store_confined storageID_inj storageID_ne_envelope envelopeName_inj playsNice_iff resolve_cleanPath path_examples | all strings, over a model of filepath.Clean and path resolution without symbolic links
C33 | proved | dir_store_is_map dir_store_refuses dirStep_refines dir_store_example toyDsd_sound Formats.dir_store_is_map_real | the map holds what is serialized of a signet (dir_store_loses_key: not a key that has only been generated); writes that stop in the middle are C34
C34 | partial | crash_loses_signet crash_damages_one_entry_partial crash_outside_write_partial dir_store_example | REFUTED: a crash after the file was opened loses old and new; proved: only that entry is affected
C57 | partial | keyring_store_is_map keyring_secret_lost keyring_example Formats.keyring_store_is_map_real | proved with getting including loading the key; REFUTED: keys and passwords can not be read back
C35 | proved | supply_hands_out_once supply_levels cache_is_queue cache_level_exact cache_fill fill_overflow cache_example supply_lost_stock supply_status | all schedules; order per cache; findings: stock of a cache that loses the creation race is never handed out (supply_lost_stock), huge amounts fill nothing (fill_overflow)
C38 | partial | text_checksum_round_trip_partial text_checksum_refuted text_checksum_example text_can_add_example spaceCodes_iff text_line_ends_partial line_ends_example | REFUTED in general (six kinds of counterexamples in text_checksum_refuted: stale checksum lines, all-comment content, empty or multi-line comment sign, indented metadata line, unknown placement); proved under the conditions CanAdd, with an exact condition on old checksum lines, and idempotence
C39 | proved | text_verify_iff text_change_detected text_verdict_invariant text_verify_total textSplit_iff text_verify_example | 
C40 | partial | armor_round_trip armor_add armor_section armor_replace armor_replace_partial armor_dangling_loses armor_example armor_replace_inside base64_accepts | REFUTED for files with an armor start without an end (armor_dangling_loses: the new signature is swallowed) and when removing blocks joins text to an armor start (armor_example); proved for every file made of complete blocks and other text
C41 | partial | verify_file_sound verify_file_sound_partial verify_file_entry_sound verify_file_refuted sign_verify_example | REFUTED as stated in two ways (verify_file_refuted): a letter without signature that uses a shared key or password is accepted, and with standard input the second signature is checked against the empty rest of the input. Proved: no error means at least one signature, and every entry is the content of a letter whose signatures all verified or that was decrypted with a shared secret, with all required metadata and the hash of the current content
C42 | partial | sign_verify_file_partial sign_verify_refuted sign_verify_example sign_verify_example_signers suite_hash_label | Proved for the four suites that only sign, for data files and standard input, for missing and existing signature files without incomplete armor, any number of times. REFUTED for suites that encrypt (accepted by SignFile, never verify) and for signature files with an incomplete block (sign_verify_refuted)
C43 | partial | json_checksum_iff json_signature_sound json_change_detected json_verdict_invariant json_checksum_round_trip_partial json_signature_round_trip_partial json_refuted json_example json_file_example toyJson_sound base64_accepts json_signature_detached | First half proved: verification succeeds only with at least one checksum or signature and if all match the canonical content. Second half REFUTED (json_refuted: stale checksums are kept, duplicate metadata keys, encrypting suites, and with sjson v1.2.5 a document that is a number or a string is replaced by its metadata); proved for objects whose old metadata is valid, without duplicate metadata keys, and suites that only sign
C44 | partial | bulk_verify_partial bulk_verify_ordered bulk_verify_directory bulk_verify_tree bulk_example bulk_verify_refuted | REFUTED in general: a letter or signature file x listed after x.sig is not looked at, and a big letter which the user declines to load counts as verified. Proved: success means nothing was skipped and every visited path is verified, except exactly these; for one directory (walked in lexical order) every letter and signature file is verified.
C49 | partial | close_keeps_data close_memory open_memory_partial open_copies_partial open_twice_refuted close_stream_example toyPrims_sizes | REFUTED for opening: Open decrypts in place, so an encrypted letter can be opened only once (and a failed Open destroys it). Proved on a memory model with slices: closing (registered suites) changes no byte of the caller; opening changes only bytes of the letter's data; both refine the model on values; copies can be opened independently.
C58 | proved | wire_stream_delivery wire_stream_example wire_roundtrip_exact | both parties, any interleaving of successful sends and receipts; refines C20 by the byte streams. Assumed: nothing is longer than 2^64 bytes; conditions of C20 (server holds the recipients' private keys, signets have IDs, level not lowered)
C59 | partial | closed_letter_on_wire close_wire_open_partial wire_loses_letters | exact condition for surviving the format; REFUTED for letters with shared keys, passwords or signatures: the format drops seal schemes and signatures, so they can not be opened afterwards (wire_loses_letters)
C60 | partial | open_checks_macs close_makes_macs mac_binds_partial mac_boundary_collision mac_example | first two parts proved in full; the third REFUTED for letters of different data length (mac_boundary_collision: the data is directly followed by the associated data) and proved for equally long data and at most 16 seals in one of the letters
C61 | partial | close_open_commands_partial sign_verify_commands_partial checksum_commands_partial commands_example sums_example commands_undo_refuted | REFUTED in general (commands_undo_refuted): letters closed under a lowered level are not opened, signatures of suites that encrypt do not verify, checksums added to a file with a stale checksum line or of comments only do not verify. Proved: composition of C04 and C10, of C42, and of C38 and C43, with their conditions (which are shown to be needed there) and the file names the commands understand; the verify command needs signers with information in the trust store (C73: it crashes otherwise)
C62 | proved | open_command_safe close_command_safe sign_command_safe default_output_not_input commands_example | any disk, input, answers and any end of writing (complete, refused, or stopped after any number of bytes)
C63 | partial | open_command_safe close_command_safe sign_command_safe checksum_add_safe commands_refuted | REFUTED (commands_refuted): outputs are truncated before they are written, so the old output (for checksum add: the user's file) is lost when writing fails. Proved: only that file is affected, and nothing if the command fails before it writes
C64 | partial | open_command_safe close_command_safe sign_command_safe commands_refuted | REFUTED (commands_refuted): sign with --output - writes a file named -; opening -.letter, the default output of closing standard input, writes the decrypted data to standard output. Proved for all names given explicitly to open and close
C65 | partial | all_envelopes_partial all_envelopes_refuted | REFUTED: one envelope with a suite that is not registered (or a damaged file) makes AllEnvelopes fail, although the code tries to list it as failed; proved: it succeeds exactly if all suites are registered, and is complete then
C66 | proved | uuid_permitted uuid_collision_iff generate_stores_pair generate_stores_secret generated_pair_stays generated_keys_work generate_example generated_use_example generate_settings_suffice generate_succeeds | for stores whose writes do not stop in the middle (see C34)
C67 | partial | generate_failure_partial generate_texts_import generate_refuted generate_not_atomic | REFUTED: (a) if the second write fails, a private signet stays without recipient although the command fails; (b) generate --textonly always fails for shared keys and passwords; (c) generate --scheme key --symkeysize -1 panics. Proved: the store is unchanged or has gained the private signet, a recipient is never stored without its private key; with --textonly nothing is stored and for tools both texts can be imported again
C68 | partial | wire_close_no_nonce wire_later_sends_read_nonce wire_first_close_no_key wire_close_repeats_partial wire_answer_lost wire_retry_refuted wire_lost_example | REFUTED: (a) if the generation of the key for the answer to the first letter fails, a signet without key stays in the pair and that party never sends again (Close panics); (b) a first letter to several recipients whose second key generation fails leaves a pair behind, so the answer to the repeated letter is rejected. Proved: all other failures of the source of random numbers leave the state untouched
C69 | partial | pick_shows_id pick_chosen_partial pick_done manage_deletes_chosen_partial manage_done pickMany_chosen select_chosen suite_lines suite_chosen manage_edits_chosen_partial manage_example manage_pair_refuted manage_blank_refuted manage_done_refuted manage_envelope_refuted manage_envelope_example choices_fit untouched_selection untouched_example | REFUTED: the terminal dialogs find the chosen entry again from the text of its line. (a) signet and recipient of a pair share the ID: choosing the private signet deletes the recipient; (b) an ID or envelope name with a blank selects another entry; (c) an entry whose line begins with Done ends the dialog. Proved: for entries with plain texts (one-word unique IDs, no line ends) every dialog acts on exactly the chosen entry, for every padding of the table
C70 | proved | configure_saves_usable edit_saves_usable usable_after_clean savable_reads_back saved_envelope_works configure_example configure_hypotheses configure_inline_lost presets_ask_for_all unsafe_shown | Every end of the dialog leaves the store unchanged, deletes the entry, or saves an envelope without key material that reads back and opens a session of at least the saved level, given passwords as strong as that level. Limit shown by configure_inline_lost: an envelope with an inline key (only a library user can store one) loses its key when edited and no longer opens a session
C71 | partial | configure_keeps_others_partial configure_blank_refuted configure_hypotheses configure_blank_name untouched_example | REFUTED: a new name is trimmed after the existence check, so configure " x" overwrites the existing envelope x (configure_blank_refuted). Proved: all signets and all envelopes other than the one with the (trimmed) name are unchanged, whatever the choices
C72 | partial | configure_no_panic_partial manage_signets_no_panic_partial manage_envelopes_no_panic_partial dir_dialogs_no_panic_partial dialogs_no_panic_example manage_crash_refuted long_name_crash_refuted long_name_example configure_crash_refuted | REFUTED: (a) a signet name with line ends makes blank lines in the list of jess manage, choosing one crashes (manage_crash_refuted); (b) a signet with a name of 64 KiB empties the list, and changing the signets of an envelope crashes (long_name_crash_refuted, for all stores and envelopes); (c) an envelope with an unknown suite in the keyring store crashes configure (configure_crash_refuted). Proved: with short texts without tabs and line ends and, outside directories, loaded suites, no history of choices crashes the three dialogs, and the store keeps satisfying the condition
C73 | partial | report_names_signers_partial letter_report_names_signers bulk_line_names_signers many_signatures_not_shown report_refuted report_example metadata_sorted report_result report_result_example | REFUTED: with three or more signatures the report of jess verify names no signer (many_signatures_not_shown, for all files); signed metadata with line ends adds lines that read like signers; a signer without information in the trust store crashes the command; a big letter the user declined to load is reported as OK in bulk mode (report_refuted). Proved: with at most two signatures and texts on one line, the "Signed By" lines of a successful report are exactly the signers of the verified signatures in order, with one "Verification: OK" per signature, the verified hashes, all signed metadata and the file names; letters and the bulk lines name exactly the signers of the verified signatures
C74 | partial | created_password_partial strong_password_created only_five_digits_sent same_request prompted_password_rated_partial prompt_good_passwords_partial password_refuted password_example created_password_used typed_password_opens_partial typed_password_example | REFUTED: an HTTP error page of the service counts as not compromised; a password of 169 characters accepted by the prompt is refused by the session (password_refuted). Proved: an accepted password reaches the demanded level, was typed twice, and if asked for, the answer was read completely and no line of it begins with the rest of the hash; at most one request is sent, after consent, with five hex digits of the hash; passwords in the floating point range keep the level in the session. Trusted: survey repeats a prompt until its validator accepts, SHA-1 has 20 bytes
C75 | partial | shared_store_partial prepared_signets_partial prepared_public_keys own_signets_safe loaded_signets_safe concurrent_outcome shared_store_refuted shared_example | REFUTED: while one session is between the two assignments of SetLoadedKeys, another session takes the signet as loaded, and signing fails or opening crashes with the private key missing (shared_store_refuted). Proved for every schedule of any number of sessions: preparing succeeds or fails as it does alone; public keys are always right; when no session is between the two assignments every session, letter and verification behaves as with a store of its own; signets of one session only (the directory store reads a fresh signet per session) and signets loaded before are never affected. Memory model: sequential consistency, one step per field access
C76 | partial | session_key_size registered_key_size tool_key_sizes password_key_size encapsulated_key_size close_password_keys open_other_settings_partial close_open_settings_partial key_size_refuted key_size_example | REFUTED: SetDefaultKeySize is documented as a fallback, but raises the key size of every session and thereby the size of password keys, which the letter does not record: a password letter closed after SetDefaultKeySize(64) is not opened under the default settings (key_size_refuted). Proved: the key size of every session is the largest one of its tools and the global setting; tools get keys and nonces of their sizes; letters without passwords, or with sizes up to 32 or equal, open under all settings that do not demand more security
C77 | partial | flags_trust_store flags_accepted seclevel_enforced symkeysize_applied no_flag_applied no_trust_store_partial no_trust_store_refuted flags_example | REFUTED: without a trust store export, backup and import crash, they do not check that there is one (no_trust_store_refuted). Proved: the trust store that is asked for is used or the command fails, there is no fallback to another one; the other global flags take effect on every session and letter; close and sign without a trust store fail and change nothing
C78 | proved | key_stream_disjoint key_stream_positions wire_close_keys encapsulation_fits key_stream_example | for every suite, also ones with several ciphers and MAC tools; wire sessions for the suites of the library
C79 | partial | bulk_report bulk_lines_partial bulk_lines_refuted bulk_report_example | REFUTED for the output as text: names of files are printed as they are, so a file whose name has a line end adds an OK line about any other file (bulk_lines_refuted; the command still fails). Proved: every line says something true, every visited path is on a line, the command succeeds exactly if all lines are OK lines; with names, signers and errors without line ends these are the lines of the output
C80 | partial | wire_memory_partial wire_memory_released_partial wire_reuse_refuted wire_memory_example | REFUTED: between opening the first letter and sending the first reply, a session still refers to the memory of the letter's keys; if the caller reuses it, the reply cannot be sent or not be opened (wire_reuse_refuted). Proved: while that memory is kept, sessions in memory do what the model on values says, whatever else the caller changes; they change no memory of the caller but the data of a letter that is opened; and the session refers to memory of the caller only until its first successful reply, or while an answer is awaited
C81 | partial | list_shows suite_dialog_shows signet_dialog_shows envelope_list_shows menu_shows signets_unambiguous_partial tools_listed table_shown signet_columns decimal_read attrs_shown attr_names_shown purpose_shown status_shown envelope_line_refuted lines_example list_shows_registered | REFUTED: envelopes are shown with the names, but not the IDs, of their signets, and names are not escaped: envelopes that go to different recipients look the same (envelope_line_refuted). Proved: `jess list` prints every registered suite, tool and hash tool exactly once with its attributes and level; the dialogs have one line for each suite, signet and envelope, in order, with the right name, kind, purpose, level, attributes and status; and if names have no commas and colons, an envelope's line tells the names of its secrets, recipients and senders. For texts without tabs and line ends of at most 5000 bytes
C82 | partial | tools_registered hash_tools_registered registration_order tool_names_true hash_names_true with_template hash_with_template recommended_registered pss_hash_named_partial pss_hash_refuted list_shows_registered | REFUTED: BLAKE2s-256 is registered with the crypto.Hash of BLAKE2b-256, so RSA-PSS(BLAKE2s-256) uses the parameters of another hash function (pss_hash_refuted). Proved: whatever the order of package initialisation and the sorting algorithm, Get and AsList give exactly the declared tools and hash tools (the tables that the other theorems use); names, key sizes, digest sizes, levels, curves and labeled hash algorithms agree; and for every other hash tool the crypto.Hash is the right one or (BLAKE3) none
C83 | partial | burn_effect_partial burn_unsupported burn_stored_partial memLoad_spec generated_keys recipient_keys burn_recipient_partial burn_recipient_refuted burn_refuted burn_example secrets_have_no_recipient plain_ed25519_burned | REFUTED: Signet.Burn returns no error and leaves X25519 and Ed25519 private keys as they are (burn_refuted, burn_effect_partial), the stored key of RSA, X25519 and Ed25519 signets stays complete (burn_stored_partial), and burning the public copy of an RSA signet (AsRecipient) destroys the modulus of the original (burn_recipient_refuted). Proved: private keys of NIST curves are overwritten, in the stored key as well, which afterwards loads as a key of 0xFF; all numbers of a loaded RSA key become zero; nothing else in memory changes; schemes without key tools give an error. The README documents secure deletion as a known issue
C84 | proved | library_session close_shape closed_letter_bound opened_data_authentic library_letter_example | For envelopes of callers, whose suite is always looked up by ID, and at most 16 secrets and recipients together: the limit of C05. The cipher, signature and MAC algorithms are abstract; that a secret key authenticates what it sealed is the hypothesis hauth
C85 | proved | received_bytes_do_not_crash dir_own_entries dir_world_sound received_example | Assumes that the cryptographic libraries and dsd do not panic (Prims.NoPanic, Dsd.NoPanic) and that the trust store is used only through its API; letters parsed from JSON or CBOR and other stores are C26
C86 | proved | closed_letter_has registry_tools closing_labels sign_labels closed_letter_has_example | For envelopes of callers, whose suite is always looked up by ID. What the AEAD cipher, the signatures and the key derivation achieve is the library's; the theorem says that they are applied, to what, and under which keys
C87 | proved | closed_with_all_secrets closing_fails_without_secret opened_with_all_secrets closing_pairs opening_pairs key_secrets_example | For the suites of the library (callers cannot add others). Key derivation, password hashing, key exchange and encapsulation are abstract functions
C88 | proved | exchange_works importDir_is_command export_import_stores two_stores_work toyDsd_plain exchange_example | Directory stores whose writes end normally or are refused; the serialization library reads back what it writes (Dsd.Sound) and fills only exported fields (Dsd.Plain); correct primitives; the condition of C10 on the security level
C89 | proved | session_keys_burned wire_keys_burned run_burned close_burned open_burned verify_burned keys_burned_example | For sessions of the library's suites. Assumes that the key derivation does not fail within its first 8160 bytes (the limit of HKDF), and for wire sessions that keys are shorter than 8000 bytes. Copies inside the cipher objects of the Go libraries, and copies the Go runtime makes, are not modelled; signets of participants are C83
C90 | proved | opens_only_with_all_secrets wrong_shared_key_rejected wrong_password_rejected wrong_private_key_rejected opener_participants openPrims_holds openPrims_sizes openPrims_password only_with_example only_with_runs | What the cryptography has to achieve is a hypothesis about this one letter and this one opener: if its data opens with the key the opener derives, that is the key it was closed with, derived from the same material (HoldsAgainst), and for passwords that the other password derives another key (OtherPassword); nothing is assumed about other inputs; keys derived from passwords and established keys have fixed lengths, and shared keys under the same ID have the same length (without that the derivation input is ambiguous, see C48). Participants have IDs (seals without an ID are skipped when opening)
C91 | proved | file_arrives exchange_stores stored_counterparts file_arrives_example | Composition of C61, C66 and C88. Directory stores whose writes end normally or are refused; the serialization libraries read back what they write; correct primitives; the condition of C10 on the security level; letters shorter than 2^64 bytes
C92 | proved | close_uses_suite_only open_uses_suite_only verify_uses_suite_only suite_isolated isolated_example wire_isolated wire_isolated_example | For sessions of letters (all suites) and wire sessions (registered suites, every history of letters sent and received); the creation of the session is done with one of the libraries
C93 | proved | required_available key_methods_available correspondence_available close_available open_available letter_open_available letter_verify_available generate_available dispatched_same dispatch_never_fails dispatch_example wireCorrespondence_available wire_history_available wire_dispatch_never_fails wire_dispatch_example methods_table implements_exactly | The table of overridden methods is transcribed from the Go files (Model/Methods). For sessions of letters, keys and wire sessions
C94 | proved | close_draws ephemeral_keys_differ toy_draws_differ draws_example wire_draws wire_keys_differ wire_draws_example | For envelopes of callers (suite looked up by ID). The draws are those of the random source of the application: nonce, key pairs for recipients, signatures. Wire sessions: for every letter a party sends at any point of any history
C95 | proved | signed_file_verifies sender_ids signed_file_verifies_example | Composition of C42, C66, C73 and C88. Directory stores whose writes end normally or are refused; the serialization libraries read back what they write; correct primitives; the condition of C10 on the security level
C96 | proved | conversation_works session_recipients_length conversation_example | Composition of C58, C66 and C88. Both directions, byte streams, any interleaving of successful sends and receipts. Envelopes with recipients only; nothing is longer than 2^64 bytes; correct primitives; serialization libraries read back what they write; the condition of C10 on the security level
C97 | proved | password_file_opens wrong_password_no_output passwords_session created_secrets openPrims_correct password_file_example | Composition of C61, C74 and C90. What the cryptography has to achieve for a wrong password is a hypothesis about this letter and this opener (HoldsAgainst, OtherPassword)
C98 | proved | envelope_uses_named letter_uses_named history_keeps_letter history_keeps_envelope history_example | Any letters and envelopes. Histories: directory trust store, operations ending in any way including crashes in a write, no other program writing to the directory (see C34)
C99 | proved | text_restores envelope_text_restores restore_entries restored_store_works restore_example | With Signet.Backup and Export of the API and jess import (the command jess backup is broken, see C56). Shared keys can not be restored (C28 refuted part: their import fails). Directory stores whose writes end normally or are refused; the serialization library reads back what it writes (Dsd.Sound) and fills only exported fields (Dsd.Plain); envelopes with references only
C100 | proved | first_letter_only_with_keys wire_wrong_key_rejected first_close first_open openPrims_holds_wire wire_only_with_runs wire_only_with_example | First letters of wire sessions from registered suites, recipients referred to by ID. That the cryptography holds (HoldsOnWire: key derivation and cipher, for this letter and this server) is a hypothesis, not proved; the size assumptions on derived keys (SecretSizes) are facts of the primitives
C101 | proved | json_checksum_iff json_signature_sound json_change_detected json_verdict_invariant json_example json_file_example toyJson_sound base64_accepts | The verifying half of C43. gjson, sjson and pretty are abstract with the laws of JsonLib.Sound (met by toyJson); that the hash distinguishes the two contents is a hypothesis about these two contents. Order independence for documents without duplicate keys.
C102 | proved | dir_select_complete dir_select_files passes_iff dir_store_example | The directory half of C31 (the in-memory store is refuted there). dsd abstract (Dsd.Sound, met by toyDsd); names of at most 255 bytes and whole operations as in C33.
C103 | proved | key_round_trip public_never_private load_x25519_iff load_ed25519_iff load_nist_iff key_version_checked load_total generate_never_overwrites signet_key_round_trip keyKind_tools toyLib_sound toyCodec_uses keyPair_examples signet_key_example | C29 without the rejection of truncated NIST private keys, which is refuted there (load_nist_iff says what is accepted). Curve and RSA functions of the standard library abstract (KeyLib.Sound, met by toyLib).
C104 | proved | keyring_store_is_map keyring_example | The refinement half of C57. Getting includes loading the key, which fails for shared keys and passwords (see C57); the specification map loads as well.
C105 | proved | flags_trust_store flags_accepted seclevel_enforced symkeysize_applied no_flag_applied flags_example | C77 without the commands that need a trust store and have none (refuted there). MeetsLevel is the specification of C17 (levels 0 mean not applicable).
C106 | proved | bulk_report bulk_report_example | C79 up to the text: a file name with a line end can make one entry look like two lines (refuted there). A big letter that the user declines to load is reported OK (see C44, C73): the specification of verified says so.
C107 | proved | bulk_verify_directory bulk_verify_tree bulk_example | C44 for the argument being one directory. The walk is the one of filepath.Walk: lexical order, unreadable entries reported once.
C108 | proved | close_keeps_data close_memory close_stream_example toyPrims_sizes | The closing half of C49 (opening is refuted there). Remark: with a stream cipher, which no suite of the library uses, the data is overwritten if its slice has no spare capacity (close_stream_example).
C109 | proved | tools_registered hash_tools_registered registration_order tool_names_true hash_names_true with_template hash_with_template recommended_registered | C82 without the crypto.Hash identifier (refuted there for one hash tool). The statements about names are about the finite tables of the code, so they are settled by evaluation; those about orders and sorting are for all of them.
C110 | proved | list_shows list_shows_registered tools_listed table_shown attrs_shown attr_names_shown purpose_shown status_shown decimal_read | The jess list part of C81. text/tabwriter is trusted to fill each column with blanks (FillsColumns).
C111 | proved | text_shape kinds_exclusive text_parses backup_round_trip export_round_trip envelope_text_round_trip import_dispatch import_of_parsed toyDsd_sound text_example text_name_chars text_name_kept text_name_example Formats.backup_round_trip_real Formats.export_round_trip_real Formats.envelope_text_round_trip_real Formats.realDsd_sound | C28 without shared keys and passwords (refuted there). dsd abstract (Dsd.Sound, met by toyDsd and by the real formats: Formats.*_real for UTF-8 texts, others are refuted in C28 and C114), base58 modelled; hypotheses UsesCodec and KeyLib.Sound met by toyCodec/toyLib.
C112 | proved | only_five_digits_sent same_request password_example | The secrecy part of C74. SHA-1 abstract.
C113 | proved | session_key_size registered_key_size tool_key_sizes password_key_size encapsulated_key_size close_password_keys key_size_example | The first half of C76 (the second is refuted there). Hypothesis KdfSizes (a key derivation gives as many bytes as asked for) met by toyPrims.
C114 | partial | Formats.letter_file_survives Formats.letter_cbor_survives Formats.signed_data_survives Formats.signet_file_survives Formats.signet_cbor_survives Formats.envelope_file_survives Formats.envelope_cbor_survives Formats.formats_meet_assumptions Formats.realDsd_noPanic Formats.header_read Formats.header_survives_iff Formats.letter_cbor_iff Formats.signet_cbor_iff Formats.envelope_cbor_iff Formats.signet_file_read Formats.envelope_file_read Formats.text_not_importable Formats.text_not_importable_example Formats.letter_formats_example Formats.header_bytes_example Formats.formats_example Formats.closed_letter_text Formats.closed_letter_survives Formats.closed_letter_lost Formats.closed_letter_text_example Formats.b64Padded_length Formats.dir_store_get_real Formats.dir_store_real_example Formats.dir_history_real_example Formats.utf8_iff Formats.text_unchanged_iff Formats.text_fixed Formats.utf8_example Formats.letter_json_read Formats.letter_json_survives_iff Formats.letter_json_one_line Formats.letter_json_example | Proved for all structures with UTF-8 texts, all bytes elsewhere (and for file data whatever its texts are). REFUTED for texts that are not UTF-8: letter headers and store files are written and read back changed (header_survives_iff, signet_file_read, closed_letter_lost), CBOR and text backups are written but can not be read (letter_cbor_iff, signet_cbor_iff, text_not_importable).
C115 | partial | start_panics_iff shown_version shown_version_kept version_says settingOf_last LastSetting.unique unknown_is_clean version_example | Proved for binaries with build info. REFUTED for binaries without it (built without module support): every command crashes in init, before its arguments are read (start_panics_iff). Finding: without VCS settings the commit is empty and called clean (unknown_is_clean).
C116 | proved | keyring_stores_separate keyring_open_example | The keyring of the system (go-keyring) is trusted to keep entries by service and key; its failures are inputs.
C117 | proved | Formats.letter_json_reread Formats.letter_reread Formats.signet_reread Formats.envelope_reread Formats.reread_example | MsgPack (which the library never writes for these structures, but would read) is left out: the reader of the model does not read letters, signets and envelopes from it. CBOR for slices below 2^64 bytes.
C118 | partial | checked_envelope_closes_partial checked_envelope_again check_passes_unusable check_example | The code refutes the first half: the check ignores empty passwords, empty raw keys and senders without private keys (check_passes_unusable). The proved part says that these are the only reasons: with working algorithms and random numbers, closing succeeds if and only if none of the three holds (checked_envelope_closes_partial). Using it again is proved for envelopes in which no signet is left empty (checked_envelope_again). The key-encapsulation tool is in no registered suite.
C119 | proved | accepted_exactly correspondence_exactly fits_accepted accepted_fits accepted_example | Fits in Props/Accepted is the specification; demandedLevel is the global minimum if set, else the level of the envelope if set, else the default. Empty passwords and keys are not rated by the code, and the specification says so; a key of an empty envelope is refused only when closing (C118).
C120 | proved | letters_are_delivered deliver_example fits_accepted close_iff two_stores_work secret_letters_are_delivered secret_example files_are_delivered secret_files_are_delivered deliver_files_example exchange_delivers exchange_delivers_example strangers_can_write exchange_succeeds dir_store_succeeds toyDsd_rewrites | No step is assumed to succeed: acceptance is C119, closing C118, opening C1 and C88. Signet protection is not implemented in the code, so the stored signets are unprotected.
C121 | proved | signatures_are_delivered signed_files_are_verified deliver_sig_example addressed_senders sign_verify_file_partial sign_verify_commands_partial | For the suites that only sign (for others C42 is refuted) and signature files without an incomplete block (C42). Nothing is assumed to succeed: the session is C119, closing C118, verification C42 and C61.
C122 | proved | letters_from_nothing letters_from_nothing_example generate_succeeds exchange_succeeds strangers_can_write dir_store_succeeds uuidText_permitted | No step is assumed to succeed. Given are the algorithms (what they make, they use), the serializer (what it writes, it reads, and what it reads, it writes), the source of random numbers, and that writing a file in an existing directory succeeds.
C123 | proved | signatures_from_nothing signatures_from_nothing_example generate_succeeds exchange_succeeds signed_files_are_verified | No step is assumed to succeed. Given are the algorithms, the serializers, the source of random numbers, that writing in an existing directory succeeds, and that the verifier's stored signets have an info section (C42, C61).
C124 | proved | wire_never_stuck wire_never_stuck_example wire_in_order_delivery | Given are the algorithms (C20), a source of random numbers that delivers, a tool whose generated private keys can be stored, and a default security with keys of at most 8000 bytes.
C125 | proved | conversation_from_nothing conversation_from_nothing_example wire_starts stream_never_stuck stores_private stream_drains | No step is assumed to succeed. Given are the algorithms, the serializers, sources of random numbers that deliver, that writing in an existing directory succeeds, and a default security with keys of at most 8000 bytes.
