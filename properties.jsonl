{"id": "C01", "title": "Wire format round trip", "statement": "Parsing the output of Letter.ToWire with LetterFromWire returns the letter: version, suite, nonce, data, MAC, ApplyKeys and every seal's ID and value are preserved, in order, and exactly the encoded bytes are consumed so that whatever follows in the stream is left untouched. What is dropped (Signatures, seal schemes, the suite of a letter without version) and which letters are unparseable (more than 255 seals) is exactly characterised.", "quantifier": "all letters (any field contents, any number of seals) and all trailing bytes", "why_tests_cant": "the letter has unboundedly many shapes; tests sample a handful of letters", "anchors": ["letter-wire.go:ToWire", "letter-wire.go:LetterFromWire"]}
{"id": "C02", "title": "Wire encoding is unambiguous", "statement": "Two letters that serialize to the same wire bytes agree on every field the wire format transports.", "quantifier": "all pairs of letters", "why_tests_cant": "a statement about all pairs of inputs", "anchors": ["letter-wire.go:ToWire"]}
{"id": "C03", "title": "Wire parser is total and bounded", "statement": "LetterFromWire on arbitrary bytes either fails or returns a letter with at most 255 seals whose fields are all sub-slices of the input (total size bounded by input size); it never reads past the input, and an unknown wire version, a truncated input or an overlong number is always an error. It accepts exactly the strings of a grammar of the format, with the letter that the grammar assigns to them.", "quantifier": "all byte strings", "why_tests_cant": "adversarial input space is infinite", "anchors": ["letter-wire.go:LetterFromWire"]}
{"id": "C04", "title": "File format round trip", "statement": "LetterFromFileFormat(ToFileFormat(l)) returns l with header and data intact, for any data, provided the header serializer round-trips; ToFileFormat leaves the letter itself unchanged.", "quantifier": "all letters, all header codecs that round trip", "why_tests_cant": "unbounded inputs", "anchors": ["letter-file.go:ToFileFormat", "letter-file.go:LetterFromFileFormat"]}
{"id": "C05", "title": "Everything documented as MAC'd is bound by the associated data", "statement": "The associated data that ciphers, MACs and signatures authenticate determines version, suite, nonce and every key seal: two letters with the same associated data have the same values of these fields.", "quantifier": "all pairs of letters", "why_tests_cant": "collision freedom is a statement about all pairs", "anchors": ["letter.go:compileAssociatedData", "letter.go:Seal.compileAssociatedData"]}
{"id": "C06", "title": "ApplyKeys flag is authenticated", "statement": "The ApplyKeys wire flag, documented as MAC'd, is covered by the associated data: changing it on a letter in transit changes what the receiver authenticates.", "quantifier": "all letters", "why_tests_cant": "needs a statement over all letters; tests never flip the flag", "anchors": ["letter.go:Letter.ApplyKeys", "letter.go:compileAssociatedData"]}
{"id": "C07", "title": "Signing data binds the MAC", "statement": "The bytes fed to signatures determine the MAC and the associated data of the letter; letters that differ in MAC or in any field bound by the associated data have different signing data.", "quantifier": "all pairs of letters", "why_tests_cant": "collision freedom", "anchors": ["letter.go:compileAssociatedSigningData"]}
{"id": "C08", "title": "A signature binds the data/metadata boundary", "statement": "A signature over a letter is valid for no other (data, metadata) pair: two letters with different data or different authenticated metadata never feed the same byte string to the signature's hash (or the MAC).", "quantifier": "all pairs of letters", "why_tests_cant": "existential over all re-splittings of a byte string", "anchors": ["core.go:feedManagedHashers", "core.go:Close", "tools/gostdlib/hmac.go:MAC", "tools/gostdlib/poly1305.go:MAC"]}
{"id": "C09", "title": "Requirements algebra", "statement": "CheckComplianceTo succeeds exactly if every required attribute is present; Add and Remove act as set insertion/removal on duplicate-free requirements; the negated string form parses back to the same set; unknown identifiers are rejected.", "quantifier": "all requirement sets and all strings", "why_tests_cant": "all sequences of operations, all strings", "anchors": ["requirements.go"]}
{"id": "C10", "title": "Close then Open returns the data", "statement": "For every envelope the library accepts for closing with one of its suites, and every data, the letter produced by Close is opened by Letter.Open (with a trust store that holds the counterpart signets) to exactly the original data.", "quantifier": "all registered suites, all envelopes and trust stores, all data, all random numbers", "why_tests_cant": "infinitely many envelopes/keys/data; tests use fixed envelopes", "anchors": ["core.go:Close", "core.go:Open", "core.go:setupClosingKeyMaterial", "core.go:setupOpeningKeyMaterial", "letter.go:Open"]}
{"id": "C11", "title": "A session can close and open any number of letters", "statement": "Closing or opening a letter leaves a (non-wire) session ready for the next one: any sequence of Close and Open calls on one session behaves like independent calls.", "quantifier": "all sequences of operations on a session", "why_tests_cant": "all histories", "anchors": ["core.go:Close", "core.go:Open", "core.go:setup", "core.go:reset"]}
{"id": "C12", "title": "Tampering is detected", "statement": "With an unforgeable AEAD/MAC, if Letter.Open succeeds on a letter then its data, version, suite, nonce and key seals are those of a letter that was actually closed under the derived key; any modification of one of these is rejected.", "quantifier": "all letters an attacker may construct", "why_tests_cant": "attacker input space", "anchors": ["core.go:Open"]}
{"id": "C13", "title": "Sender authentication is enforced", "statement": "If Letter.Open or Letter.Verify succeeds with requirements that include sender authentication, then either there is at least one signature and every signature in the letter was verified against the public key the caller's trust store holds for the stated signer ID, or a shared secret (key or password) was required to derive the key.", "quantifier": "all letters, trust stores", "why_tests_cant": "adversarial letters", "anchors": ["core.go:Open", "core.go:Verify", "letter.go:Envelope", "session.go:newSession"]}
{"id": "C14", "title": "Verify never passes without a verified signature", "statement": "Letter.Verify and Session.Verify return nil only if the letter carries at least one signature and all of them verify, against the public keys of the stated signers in the caller's trust store, or of the senders of the caller's session in their order; otherwise they return an error.", "quantifier": "all letters, trust stores and sessions, whatever the session was used for before", "why_tests_cant": "adversarial letters", "anchors": ["core.go:Verify"]}
{"id": "C15", "title": "Requested requirements are never silently dropped", "statement": "Letter.Open/Verify/Envelope fail for every letter whose suite does not provide all attributes the caller requires; passing nil requires all four attributes.", "quantifier": "all letters, all requirement sets", "why_tests_cant": "all suites x requirement subsets x letters", "anchors": ["letter.go:Envelope", "requirements.go:CheckComplianceTo"]}
{"id": "C16", "title": "Accepted sessions provide what the suite promises", "statement": "Every session newSession accepts has tools (plus key secrets) covering every attribute the suite claims to provide, never confidentiality without integrity, never recipient authentication without confidentiality, a KDF whenever a keyed tool is present, and a key source.", "quantifier": "all envelopes a caller can make, all suites of the library (no others can be registered from outside), all trust stores", "why_tests_cant": "combinatorial space of tool sets and envelopes", "anchors": ["session.go:newSession"]}
{"id": "C17", "title": "Minimum security level is enforced", "statement": "If a session is created, every tool and every signet it will use has at least the demanded security level (global minimum if set, otherwise the envelope's level, otherwise the default of 128); raising any of these never makes a weaker session acceptable.", "quantifier": "all envelopes, suites, tool tables, level settings", "why_tests_cant": "all combinations of levels", "anchors": ["session.go:checkSecurityLevel", "session.go:calcAndCheckSecurityLevel", "defaults.go:SetMinimumSecurityLevel"]}
{"id": "C18", "title": "No signet of the envelope is ignored", "statement": "If a session is created, every secret, sender and recipient of the envelope is used by a tool: no recipient is silently left out of encryption and no sender silently not signing.", "quantifier": "all envelopes, all suites of the library (no others can be registered from outside)", "why_tests_cant": "all envelopes", "anchors": ["session.go:newSession"]}
{"id": "C19", "title": "Suite registry is sound", "statement": "Each registered suite's tools exist, are mutually compatible, provide exactly the attributes claimed and reach the claimed security level; suite IDs are unique and a later registration can not replace an earlier one.", "quantifier": "all registered suites, all sequences of registrations", "why_tests_cant": "registration histories; and completeness over the table", "anchors": ["suites_v1.go", "suites_v2.go", "suites.go:registerSuite"]}
{"id": "C20", "title": "Wire session delivers everything in order", "statement": "After the handshake starts, for every interleaving of sends and in-order receives between client and server, each receive succeeds and returns the oldest undelivered plaintext of the peer.", "quantifier": "all schedules of any length, all payloads, all random values", "why_tests_cant": "all interleavings", "anchors": ["core-wire.go:sendHandshakeAndInitKDF", "core-wire.go:recvHandshakeAndInitKDF", "core.go"]}
{"id": "C21", "title": "Wire session rejects replays, reordering and loss", "statement": "In a wire session no letter is accepted twice or out of order (with ideal crypto), whatever letters an attacker presents; if the network loses, repeats and reorders letters but does not change them, none is accepted after a lost predecessor either: what a party accepts is a prefix of what the other one sent.", "quantifier": "all schedules of both parties, all letters presented to them (of the peer only, for the part on lost letters)", "why_tests_cant": "all interleavings", "anchors": ["core-wire.go", "core.go:Open"]}
{"id": "C22", "title": "Per-message keys are fresh", "statement": "No two letters of a wire session (in either direction) are protected with the same key stream input; and the key of a message can not be recomputed from the state held after it was processed (ratchet).", "quantifier": "all histories", "why_tests_cant": "all histories", "anchors": ["core-wire.go"]}
{"id": "C23", "title": "Wire sessions re-key", "statement": "A long running wire session re-exchanges keys after the configured number of messages, as documented.", "quantifier": "all histories", "why_tests_cant": "needs 10^7 messages", "anchors": ["session-wire.go:reKeyNeeded", "core-wire.go"]}
{"id": "C24", "title": "A rejected letter does not disturb a wire session", "statement": "If Open of a wire session returns an error for a forged letter, the session can still receive the genuine next letter.", "quantifier": "all states, all forged letters", "why_tests_cant": "all histories", "anchors": ["core-wire.go:recvHandshakeAndInitKDF", "core.go:Open"]}
{"id": "C25", "title": "Wire sessions refuse unsupported material", "statement": "WireCorrespondence only succeeds if the session provides C, I and R and uses no password, signature or pre-shared key.", "quantifier": "all envelopes", "why_tests_cant": "all envelopes", "anchors": ["session-wire.go:initWireSession"]}
{"id": "C26", "title": "No panic on attacker-controlled letters", "statement": "Letter.Open/Verify and a wire session's Open never panic (index out of range, nil dereference), whatever the letter contains.", "quantifier": "all letters, all sessions", "why_tests_cant": "adversarial inputs", "anchors": ["core.go:setupOpeningKeyMaterial", "core.go:Open", "core-wire.go:recvHandshakeAndInitKDF"]}
{"id": "C27", "title": "Public exports carry no secrets", "statement": "AsRecipient, Export, CleanSignets and Envelope serialization never contain private key bytes, secret keys or passwords, for any signet and envelope.", "quantifier": "all signets and envelopes", "why_tests_cant": "information flow over all inputs", "anchors": ["signet.go:AsRecipient", "import_export.go", "envelope.go:CleanSignets"]}
{"id": "C28", "title": "Signet text format round trip", "statement": "Backup/Export text parses back to the same signet via the matching FromTextFormat function, whatever the signet's name contains, and a text of one kind is rejected by the parsers of other kinds.", "quantifier": "all signets, all names", "why_tests_cant": "unbounded strings", "anchors": ["import_export.go", "signet.go:SignetFromBytes"]}
{"id": "C29", "title": "Key serialization round trip", "statement": "For each signet scheme StoreKey then LoadKey restores the loaded key pair, a public signet never loads a private key, malformed or wrong-version keys are rejected, and GenerateKey never overwrites an existing key.", "quantifier": "all key values, all byte strings", "why_tests_cant": "unbounded", "anchors": ["tools/ecdh/x25519.go", "tools/ecdh/nist.go", "tools/gostdlib/ed25519.go", "tools/gostdlib/rsa-keys.go", "signet.go"]}
{"id": "C30", "title": "In-memory trust store is a map", "statement": "Any sequence of StoreSignet/DeleteSignet/GetSignet behaves like a map keyed by (ID, is-public); private and public signets with the same ID never shadow each other.", "quantifier": "all operation sequences", "why_tests_cant": "all histories", "anchors": ["truststore.go:MemTrustStore"]}
{"id": "C31", "title": "SelectSignets returns every matching signet", "statement": "SelectSignets returns exactly the stored signets that match filter and schemes.", "quantifier": "all stores, filters, scheme lists, all map iteration orders", "why_tests_cant": "map iteration order is nondeterministic", "anchors": ["truststore.go:SelectSignets", "truststores/dir.go:SelectSignets"]}
{"id": "C32", "title": "Directory trust store confines and separates files", "statement": "No ID or envelope name accepted by the directory trust store leads to a file outside of the storage directory, and different (ID, kind) pairs map to different files; signets and envelopes never overwrite each other.", "quantifier": "all strings", "why_tests_cant": "all strings", "anchors": ["truststores/dir.go", "truststores/io.go"]}
{"id": "C33", "title": "Directory trust store refines a map", "statement": "Any sequence of store/delete/get operations on the directory trust store behaves like a map, and IDs with forbidden characters are rejected by every operation.", "quantifier": "all operation sequences", "why_tests_cant": "all histories", "anchors": ["truststores/dir.go", "truststores/io.go"]}
{"id": "C34", "title": "Storing a signet is crash safe", "statement": "If the process crashes during StoreSignet, the store afterwards holds either the old or the new signet.", "quantifier": "all crash points", "why_tests_cant": "crash points", "anchors": ["truststores/io.go:WriteSignetToFile"]}
{"id": "C35", "title": "Signet supply hands out each signet once", "statement": "For any interleaving of concurrent GetSignet and Fill calls no generated signet is handed out twice, stock is handed out in generation order, the fill level is exact and never exceeds the cache size.", "quantifier": "all interleavings, sizes, amounts", "why_tests_cant": "all schedules", "anchors": ["supply/supply.go"]}
{"id": "C36", "title": "Labeled hash serialization", "statement": "Load(h.Bytes()) returns an equal labeled hash; Load rejects unknown algorithms, wrong digest lengths and trailing data; Equal is an equivalence that holds exactly when algorithm and digest agree; Matches accepts the hashed data.", "quantifier": "all hashes and byte strings", "why_tests_cant": "unbounded", "anchors": ["lhash/labeledhash.go", "lhash/algs.go"]}
{"id": "C37", "title": "Password strength estimate", "statement": "CalculatePasswordSecurityLevel rejects (−1) every password in which a listed character makes up a quarter or that repeats characters four times on average (in particular the empty one), and otherwise is monotone in iterations and bounded by the pool-size entropy.", "quantifier": "all passwords", "why_tests_cant": "all strings", "anchors": ["password.go:CalculatePasswordSecurityLevel"]}
{"id": "C38", "title": "Text checksum round trip", "statement": "VerifyTextFileChecksum accepts the output of AddTextFileChecksum for every text, comment sign and placement; adding a checksum twice changes nothing.", "quantifier": "all byte strings, comment signs, placements", "why_tests_cant": "all inputs", "anchors": ["filesig/text.go"]}
{"id": "C39", "title": "Text checksum soundness", "statement": "If VerifyTextFileChecksum succeeds, the text has at least one checksum line and all checksum lines match the content; modifying the content (with a collision-free hash) is detected; moving or reordering metadata lines or surrounding whitespace is not an error.", "quantifier": "all byte strings", "why_tests_cant": "all inputs", "anchors": ["filesig/text.go:VerifyTextFileChecksum"]}
{"id": "C40", "title": "Signature file armor round trip", "statement": "ParseSigFile finds exactly the signatures that were added with MakeSigFileSection/AddToSigFile; other content of the file is preserved; with replacement exactly the new signature remains.", "quantifier": "all signatures, all other file contents", "why_tests_cant": "all inputs", "anchors": ["filesig/format_armor.go"]}
{"id": "C41", "title": "File verification soundness", "statement": "If VerifyFile returns no error, at least one signature was found and every returned entry carries a verified signature by trusted signers over metadata containing all required metadata and over the hash of the current file contents.", "quantifier": "all files, signature files, metadata", "why_tests_cant": "all inputs", "anchors": ["filesig/helpers.go:VerifyFile", "filesig/main.go:VerifyFileData"]}
{"id": "C42", "title": "Sign then verify a file", "statement": "VerifyFile accepts what SignFile wrote, as long as file, signature file and trust are unchanged, also when the data is read from stdin or the signature file existed before.", "quantifier": "all files, envelopes", "why_tests_cant": "all inputs", "anchors": ["filesig/helpers.go", "filesig/main.go"]}
{"id": "C43", "title": "JSON checksums and signatures", "statement": "VerifyJSONChecksum/VerifyJSONSignature succeed only if at least one checksum/signature exists and all of them match the canonical content, and accept the output of AddJSONChecksum/AddJSONSignature.", "quantifier": "all JSON documents", "why_tests_cant": "all inputs", "anchors": ["filesig/json.go"]}
{"id": "C44", "title": "Bulk verification never hides a failure", "statement": "The verify command reports success for a set of paths only if every signature file it visited verified.", "quantifier": "all directory trees and path lists", "why_tests_cant": "all trees", "anchors": ["cmd/cmd-verify.go"]}
{"id": "C45", "title": "Random bytes are complete", "statement": "RandomBytes returns exactly n bytes or an error, and a custom RNG or password callback, once set, can not be replaced.", "quantifier": "all readers, all call sequences", "why_tests_cant": "all histories", "anchors": ["random.go", "password.go:SetPasswordCallbacks"]}
{"id": "C46", "title": "RSA key size matches security level", "statement": "The RSA key size chosen for a security level yields at least that security level, monotonically.", "quantifier": "all levels", "why_tests_cant": "all integers", "anchors": ["tools/gostdlib/rsa-keys.go"]}
{"id": "C47", "title": "MAC one-time key guard", "statement": "A Poly1305 tool instance never computes two MACs with the same key.", "quantifier": "all call sequences of Setup/MAC/Reset", "why_tests_cant": "all histories", "anchors": ["tools/gostdlib/poly1305.go"]}
{"id": "C48", "title": "Key material is not ambiguous", "statement": "Different lists of key material given to key derivation yield different derivation inputs.", "quantifier": "all lists of byte strings", "why_tests_cant": "all pairs", "anchors": ["tools/gostdlib/hkdf.go", "tools/blake3/kdf.go"]}
{"id": "C49", "title": "Opening does not destroy the letter", "statement": "Opening a letter twice returns the same data twice; closing does not modify the caller's data.", "quantifier": "all letters", "why_tests_cant": "aliasing", "anchors": ["core.go:Open", "core.go:Close", "tools/gostdlib/aes-ctr.go", "tools/gostdlib/aes-gcm.go"]}
{"id": "C50", "title": "Signet preparation", "statement": "Correspondence fills every referenced signet from the trust store with matching ID lookups of the right kind (private for senders when closing, public when opening; reverse for recipients), rejects scheme mismatches and protected signets, and asks for passwords with the right callback.", "quantifier": "all envelopes, trust stores", "why_tests_cant": "all envelopes", "anchors": ["envelope.go:prepSignets", "envelope.go:PrepareSignets", "envelope.go:fillPassword"]}
{"id": "C51", "title": "Key exchange failures are never ignored", "statement": "If establishing a key with any recipient fails, Close (or Open) fails: a letter that was closed or opened is protected with keys derived from the secrets of all its recipients. The same holds for the first letter of a wire session, for the answer with new keys, and for accepting it.", "quantifier": "all envelopes, letters and sessions of the suites of the library (no others can be registered from outside); wire sessions in every state", "why_tests_cant": "fault injection at every point", "anchors": ["core.go:setupClosingKeyMaterial", "core.go:setupOpeningKeyMaterial", "core-wire.go:makeSharedKeys", "core-wire.go:sendHandshakeAndInitKDF", "core-wire.go:recvHandshakeAndInitKDF"]}
{"id": "C52", "title": "Letters closed under a lowered security level can be opened", "statement": "Every letter Close produces for an envelope with an explicit security level can be opened by Letter.Open under the same global settings.", "quantifier": "all envelopes with security levels", "why_tests_cant": "all envelopes", "anchors": ["session.go:checkSecurityLevel", "letter.go:Envelope"]}
{"id": "C53", "title": "Nonce size follows the security level", "statement": "Every closed letter carries a fresh nonce of max(4, level/32) bytes and no two letters closed with distinct random draws share a nonce-derived key.", "quantifier": "all sessions", "why_tests_cant": "all levels", "anchors": ["session.go:NonceSize", "core.go:Close"]}
{"id": "C54", "title": "A wire session accepts only what the peer sent", "statement": "Whatever a wire session's Open accepts was produced by the peer's Close for this position (with ideal crypto); in particular a session does not accept its own letters that are reflected to it.", "quantifier": "all sessions, all letters, all schedules", "why_tests_cant": "an adversary can reflect, replay or modify any letter at any point of any schedule", "anchors": ["core-wire.go: sendHandshakeAndInitKDF, recvHandshakeAndInitKDF", "core.go: Open"]}
{"id": "C55", "title": "First custom RNG wins under concurrency", "statement": "When several goroutines call SetCustomRNG, the reader that comes into use first is never replaced by another one.", "quantifier": "all schedules of concurrent SetCustomRNG calls", "why_tests_cant": "depends on the interleaving of goroutines", "anchors": ["random.go: SetCustomRNG, Random"]}
{"id": "C56", "title": "The backup command backs up a stored signet", "statement": "jess backup <id> prints the backup text of the stored signet with that ID, and reports an error if there is none; it never crashes.", "quantifier": "all trust store contents, all IDs", "why_tests_cant": "all stored signets and IDs", "anchors": ["cmd/cmd-import-export.go:handleBackup"]}
{"id": "C57", "title": "Keyring trust store refines a map", "statement": "Any sequence of store/delete/get operations on the keyring trust store behaves like a map from (ID, is-public) and envelope name; what was stored can be read back.", "quantifier": "all operation sequences, all signets and envelopes, all refusals of the keyring", "why_tests_cant": "all histories", "anchors": ["truststores/keyring.go"]}
{"id": "C58", "title": "Wire sessions deliver over byte streams", "statement": "Two parties that write the letters of a wire session to a pair of byte streams (Close, ToWire) and read them back (LetterFromWire, Open) each get exactly the data the other side sent, in order, nothing missing, added or repeated; every byte of the streams is read as part of exactly one letter and reading the next letter never fails.", "quantifier": "all interleavings of sends and receipts of both parties, all data, all random numbers, all registered suites, up to 255 recipients", "why_tests_cant": "unbounded interleavings and message sizes; composition of handshake, ratchet and serialization", "anchors": ["core-wire.go", "session-wire.go", "letter-wire.go:ToWire", "letter-wire.go:LetterFromWire"]}
{"id": "C59", "title": "Closed letters can be sent in the wire format", "statement": "A letter made by Session.Close, written with ToWire and read with LetterFromWire, can still be opened and yields the data that was closed.", "quantifier": "all registered suites, envelopes, data and random numbers", "why_tests_cant": "ranges over all envelopes and letters", "anchors": ["letter-wire.go:ToWire", "letter-wire.go:LetterFromWire", "core.go:Close", "letter.go:Open"]}
{"id": "C60", "title": "MAC tools protect letters", "statement": "A letter whose suite has MAC tools is given, by Close, the MACs of its encrypted data together with version, suite, nonce and key seals, under keys derived from the key material; Open accepts the letter only with exactly these MACs; so two accepted letters with the same MAC agree in all of these fields.", "quantifier": "all suites with MAC tools (also custom ones), letters, worlds and data", "why_tests_cant": "ranges over all letters and all modifications of them", "anchors": ["core.go:Close", "core.go:Open", "tools/gostdlib/hmac.go", "tools/gostdlib/poly1305.go", "letter.go:compileAssociatedData"]}
{"id": "C61", "title": "Commands undo each other", "statement": "What jess close wrote, jess open turns back into the original content (through a file, under any path for it, or a pipe); what jess sign signed, jess verify accepts; after jess checksum add, jess checksum verify succeeds.", "quantifier": "all file contents, paths, working directories, envelopes, trust stores with the counterparts, random numbers", "why_tests_cant": "ranges over all contents, paths and environments", "anchors": ["cmd/cmd-close.go", "cmd/cmd-open.go", "cmd/cmd-sign.go", "cmd/cmd-verify.go", "cmd/cmd-checksum.go"]}
{"id": "C62", "title": "Commands only write their output", "statement": "jess open, close and sign change nothing but their output; jess open writes only data of a letter that was accepted with all demanded requirements; jess close writes only a letter; neither replaces an existing file unless the user agrees; a reported success means that the output is complete or that the user declined; the default output is never the input.", "quantifier": "all arguments, disk states, inputs (also malicious letters), answers and ways in which writing can fail", "why_tests_cant": "ranges over all inputs and failures", "anchors": ["cmd/cmd-close.go", "cmd/cmd-open.go", "cmd/cmd-sign.go", "filesig/helpers.go:SignFile"]}
{"id": "C63", "title": "A failing command does not lose data", "statement": "When jess open, close, sign or checksum add fails or is interrupted, the files that existed before are still intact.", "quantifier": "all commands, files and points of failure", "why_tests_cant": "ranges over all points of failure", "anchors": ["cmd/cmd-close.go", "cmd/cmd-open.go", "cmd/cmd-checksum.go:handleChecksumAdd", "filesig/helpers.go:SignFile"]}
{"id": "C64", "title": "A dash means standard input and output", "statement": "Wherever the commands document - for standard input or output, they read or write there, and a file name never does.", "quantifier": "all commands and names", "why_tests_cant": "ranges over all names and commands", "anchors": ["cmd/cmd-close.go", "cmd/cmd-open.go", "cmd/cmd-sign.go"]}
{"id": "C65", "title": "AllEnvelopes is complete", "statement": "AllEnvelopes of a directory trust store returns every envelope that was stored and not deleted, each once, with its suite loaded; an envelope that cannot be loaded does not hide the others.", "quantifier": "all histories of store, delete and get calls; all orders in which the directory is walked", "why_tests_cant": "ranges over all histories and file names", "anchors": ["truststores/dir.go AllEnvelopes", "truststores/io.go LoadEnvelopeFromFile", "envelope.go LoadSuite"]}
{"id": "C66", "title": "Generated keys are stored and work", "statement": "After jess generate has succeeded, the directory trust store holds, under a new ID with 122 random bits, the signet with both keys and the recipient with the public key only (or the shared key, or the password signet), and nothing else in the store has changed. Letters closed with generated keys open with them.", "quantifier": "all tools and schemes, names, random bytes, contents of the store, histories of further generate commands, and letters", "why_tests_cant": "ranges over all store contents, random values and messages", "anchors": ["cmd/cmd-generate.go", "cmd/cfg-signet.go newSignet", "signet.go AssignUUID, GenerateKey, AsRecipient, StoreKey"]}
{"id": "C67", "title": "A failing generate leaves nothing half done", "statement": "If jess generate fails, the trust store is as before; with --textonly the store is never touched and the two texts that are printed are imported again as the signet and its recipient; no flag value makes it panic.", "quantifier": "all points of failure, schemes, flags and random values", "why_tests_cant": "ranges over all failures and inputs", "anchors": ["cmd/cmd-generate.go", "cmd/cfg-signet.go newSignet", "import_export.go"]}
{"id": "C68", "title": "A failing Close of a wire session can be repeated", "statement": "If Close of a wire session fails because the source of random numbers fails, the session is as before: the next Close, with working random numbers, does what this one would have done, and the peer accepts its letter.", "quantifier": "all histories of a party (sends, failures, received letters), all sessions and recipients, all points of failure of the source of random numbers", "why_tests_cant": "ranges over all histories and all points of failure; a test source of random numbers does not fail at a chosen read", "anchors": ["core-wire.go: sendHandshakeAndInitKDF, generateLocalKeyExchangeSignets, makeSharedKeys", "core.go: setupClosingKeyMaterial, Close"]}
{"id": "C69", "title": "A dialog acts on the entry that was chosen", "statement": "In the terminal dialogs of the command (manage signets, manage envelopes, select signets for an envelope, select a cipher suite) the signet, envelope or suite that is deleted, edited, added or set is the one whose line the user chose, and choosing Done changes nothing.", "quantifier": "all trust store contents (IDs, names, kinds of signets, envelopes), all choices, all column widths", "why_tests_cant": "ranges over all texts a stored signet or envelope may carry and all selections; dialogs are not covered by tests at all", "anchors": ["cmd/cfg-signet.go: pickSignet, selectSignets", "cmd/cmd-manage.go: manageSignets, manageEnvelopes", "cmd/cfg-envelope.go: editEnvelopeSuite", "cmd/format.go: formatColumns"]}
{"id": "C70", "title": "What the envelope dialog saves can be used and has no keys in it", "statement": "For envelopes that consist of references to stored signets and passwords (all that the command itself creates or saves): whatever the user chooses in the configure dialog, it ends with the store unchanged, with the envelope deleted, or with an envelope saved that has no key material or passwords in it, reads back, and with which a session of at least the stored security level can be created from the same trust store (given passwords as strong as that level).", "quantifier": "all trust stores, envelopes of references, dialog choices, passwords entered, cipher suites", "why_tests_cant": "ranges over all sequences of dialog choices and all stores; the preparation in the dialog edits the envelope in place, so the saved one is not the one that was checked", "anchors": ["cmd/cfg-envelope.go: editEnvelope", "cmd/cmd-configure.go", "envelope.go: PrepareSignets, CleanSignets", "letter.go / envelope.go: Correspondence"]}
{"id": "C71", "title": "The envelope dialog touches only the named envelope", "statement": "Configuring an envelope changes no signet and no envelope other than the one named on the command line.", "quantifier": "all directory trust stores, names, dialog choices, refused writes", "why_tests_cant": "ranges over all names, store contents and dialog histories", "anchors": ["cmd/cmd-configure.go", "cmd/cfg-envelope.go: newEnvelope, editEnvelope", "truststores/dir.go: StoreEnvelope"]}
{"id": "C72", "title": "The dialogs do not crash", "statement": "Whatever is in the trust store and whatever the user chooses, the configure and manage dialogs end with success or an error, not with a crash.", "quantifier": "all trust store contents, dialog choices of any length, password prompts and results of the primitives", "why_tests_cant": "ranges over all store contents and dialog histories", "anchors": ["cmd/cfg-envelope.go:newEnvelope,editEnvelope,editEnvelopeSuite", "cmd/cfg-signet.go:pickSignet,selectSignets", "cmd/cmd-manage.go:manageSignets,manageEnvelopes", "cmd/format.go:formatColumns", "truststores/keyring.go:GetEnvelope"]}
{"id": "C73", "title": "The verification report names the signers", "statement": "When jess verify succeeds, what it prints names every signer of every signature that was verified, and nobody else; it shows all signed metadata and the hash, and prints OK only for what was verified.", "quantifier": "all signature files, letters, trust stores, metadata and file names", "why_tests_cant": "ranges over all signature files, texts and trust store contents; the report is a text in which signed data could imitate other lines", "anchors": ["cmd/format_sig.go:formatSignatures,formatSignature,sortMetadata", "cmd/cmd-verify.go:verify,verifyLetter,verifySig"]}
{"id": "C74", "title": "Created passwords are strong, confirmed and not leaked", "statement": "A password created at the prompt has the demanded security level, was typed twice, and if the user asked for it, was checked against the compromised passwords and not found; only the first five hex digits of its hash leave the machine, and only with consent; a session accepts the password.", "quantifier": "all sequences of typed passwords, answers of the user, answers of the service, and demanded levels", "why_tests_cant": "ranges over all passwords, dialogs and responses; secrecy of what is sent is about all pairs of passwords", "anchors": ["cmd/password.go:createPassword,checkForWeakPassword,createPasswordInterface", "password.go:CalculatePasswordSecurityLevel", "session.go:calcAndCheckSecurityLevel", "envelope.go:fillPassword"]}
{"id": "C75", "title": "Sessions prepared concurrently from one trust store do not disturb each other", "statement": "When several sessions, each with its own envelope or letter, are prepared at the same time from one trust store, each gets the signets, succeeds, fails, and closes, opens and verifies as if it were alone.", "quantifier": "all numbers of sessions, all signets they share, and all interleavings of their steps", "why_tests_cant": "ranges over all schedules; the window in which another session sees a half loaded signet is a few instructions long", "anchors": ["envelope.go:prepSignets", "signet.go:LoadKey,SetLoadedKeys", "truststore.go:MemTrustStore.GetSignet", "truststores/dir.go:GetSignet"]}
{"id": "C76", "title": "Key sizes are right, and letters open whatever default key size is set", "statement": "Every tool gets keys and nonces of its size, and keys derived from passwords or made for encapsulation have the key size of the session, which is the largest one of its tools. The default key size is only a fallback: a letter that opens for one user opens for every other user with the same signets and passwords, whatever default key size either has set.", "quantifier": "all suites, envelopes, letters, primitives, and all pairs of global settings of the two sides", "why_tests_cant": "ranges over all pairs of settings and all sessions; tests run closing and opening in one process with one setting", "anchors": ["session.go:newSession", "helper.go:NewSessionKey,NewSessionNonce,DefaultSymmetricKeySize", "defaults.go:SetDefaultKeySize", "core.go:setupClosingKeyMaterial"]}
{"id": "C77", "title": "Global flags take effect on every command", "statement": "A command works with the trust store given by --tsdir, else by JESS_TS_DIR, JESS_TSDIR, --tskeyring, JESS_TS_KEYRING or JESS_TSKEYRING, and fails if that cannot be opened; everything used has the level of --seclevel; only attributes named by --no may be missing; without a trust store, commands that need one say so and change nothing.", "quantifier": "all flags, environment variables, states of the system, letters and commands", "why_tests_cant": "ranges over all combinations of flags, variables and letters; there are no tests of the command line", "anchors": ["cmd/main.go:initGlobalFlags,requireTrustStore", "cmd/cmd-import-export.go:handleExport,handleBackup,handleImport", "truststores/dir.go:NewDirTrustStore", "truststores/keyring.go:NewKeyringTrustStore"]}
{"id": "C78", "title": "Keys of different tools never share key stream", "statement": "The keys and nonces of all tools of a session are distinct, not overlapping parts of one key stream that is derived from all the key material of the letter and its nonce; in a wire session the key kept for the next letter is a further part that does not overlap with them. A key is encapsulated for a recipient exactly if it fits the recipient's RSA modulus, and is refused otherwise.", "quantifier": "all suites, tools, key material, letters and states of a wire session", "why_tests_cant": "overlapping keys work just as well in a round trip test, closing and opening would use the same overlapping ones", "anchors": ["core.go:Close,Open,setup", "helper.go:NewSessionKey,FillNewSessionKey,NewSessionNonce", "tools/gostdlib/hkdf.go:DeriveKey,DeriveKeyWriteTo", "core-wire.go:sendHandshakeAndInitKDF", "tools/gostdlib/rsa-oaep.go:EncapsulateKey"]}
{"id": "C79", "title": "The report of a bulk verification agrees with its result", "statement": "When jess verify checks several files or directories, each line of its output is true: a file on an OK line is verified and signed by those named there, a file on a FAIL line does not verify, a WARN line is about a path that cannot be read. Every path visited is on a line, and the command succeeds exactly if there are only OK lines.", "quantifier": "all arguments, directory trees, file contents, trust stores", "why_tests_cant": "ranges over all trees and contents; there are no tests of the command", "anchors": ["cmd/cmd-verify.go:verifyCmd,verify,verifyLetter,verifySig", "cmd/format_sig.go:getSignedByMany"]}
{"id": "C80", "title": "Memory handed to a wire session may be reused", "statement": "After Close or Open of a wire session has returned, the caller may overwrite the memory of the data and the letters he passed; the session goes on as if he had not. Close and Open change no memory of the caller, except that Open decrypts a letter in place.", "quantifier": "all wire sessions, sequences of Close and Open, memory layouts and overwrites in between", "why_tests_cant": "ranges over all histories and all aliasings of slices; no test reuses a buffer", "anchors": ["core-wire.go:sendHandshakeAndInitKDF,recvHandshakeAndInitKDF,burnEphemeralKeys,copyKeyMaterial", "core.go:Close,Open", "letter-wire.go:LetterFromWire"]}
{"id": "C81", "title": "Lists and dialogs show what there is", "statement": "`jess list` shows each suite, tool and hash tool once, with its true attributes, security level and status; the dialogs show one line for each suite, signet and envelope, from which the user can tell its ID, name, kind, purpose, security level and, for envelopes, who is involved.", "quantifier": "all stored signets and envelopes, all registered suites and tools, all column widths", "why_tests_cant": "ranges over all contents of trust stores; the terminal dialogs have no tests", "anchors": ["cmd/format.go:formatColumns,formatSignetName,formatSignetSecurityLevel,formatRequirements,formatEnvelopeSignets,formatSuiteStatus", "cmd/cmd-list.go", "cmd/cmd-manage.go:manageSignets,manageEnvelopes", "cmd/cfg-envelope.go:editEnvelope,editEnvelopeSuite", "requirements.go:ShortString,String", "tools/tool.go:FormatPurpose"]}
{"id": "C82", "title": "Registries hold what is declared, and names tell the truth", "statement": "Whatever the order in which packages are initialised, tools.Get and hashtools.Get find each tool by its name with the properties declared for it, and AsList lists all of them sorted by name. Key sizes, curves, digest sizes and security levels agree with the names, and each hash tool computes, reports and labels one and the same hash function.", "quantifier": "all orders of initialisation, all sorting algorithms, all registered tools and hash tools", "why_tests_cant": "ranges over all orders of initialisation; the tests do not compare the identifiers of a hash tool with its function", "anchors": ["tools/tools.go:Register,Get,AsList", "tools/tool.go:With,HasOption", "hashtools/tools.go:Register,Get,AsList", "hashtools/hashtool.go:With,LabeledHasher", "hashtools/blake2.go:init", "hashtools/sha.go:init", "tools/gostdlib", "tools/ecdh", "tools/gostdlib/rsa-pss.go:Sign,Verify", "defaults.go"]}
{"id": "C83", "title": "Burning a signet destroys its private key and nothing else", "statement": "After Signet.Burn has returned without error, neither the loaded private key nor the stored key of the signet holds the private key; no other memory has changed, in particular no other signet, also not the one from which a recipient was made.", "quantifier": "all signets of all schemes, loaded from any stored key or generated, all memory contents", "why_tests_cant": "ranges over all keys and memory layouts; the effect depends on Go type assertions and shared memory that no test looks at", "anchors": ["helper.go:Burn", "signet.go:Burn,LoadKey,AsRecipient", "tools/ecdh/x25519.go:BurnKey,LoadKey", "tools/ecdh/nist.go:BurnKey,LoadKey", "tools/gostdlib/ed25519.go:BurnKey,LoadKey", "tools/gostdlib/rsa-keys.go:BurnKey,LoadKey", "tools/toollogic.go:BurnKey"]}
{"id": "C84", "title": "Letters of the library suites are bound as a whole, for at most 16 secrets and recipients", "statement": "If a letter was made by Correspondence and Close from an envelope with at most 16 secrets and recipients together, any letter with the same associated data has the same version, suite, nonce and key seals, and with the same signing data also the same MAC. Opening any letter whatsoever under a key that only the parties know returns only data that one of them closed, from a letter with the same version, suite, nonce, key seals and data.", "quantifier": "all envelopes, data, trust stores, random numbers, and all letters presented for opening", "why_tests_cant": "ranges over all letters an attacker can write, of any number of key seals", "anchors": ["letter.go:compileAssociatedData,compileAssociatedSigningData", "core.go:Close,Open", "session.go:newSession", "envelope.go:LoadSuite,Correspondence"]}
{"id": "C85", "title": "Received bytes never crash the receiver", "statement": "Whatever bytes arrive from another party, parsing them as a letter in the wire format, opening or verifying the letter they give, setting up a wire session and opening letters in it return a result or an error but never panic, with a directory trust store that was only used through its API.", "quantifier": "all byte sequences, requirements, trust stores reached by any history of API calls, callbacks and random numbers", "why_tests_cant": "ranges over all inputs and all histories of the trust store", "anchors": ["letter.go:Open,Verify,WireCorrespondence", "letter-wire.go:LetterFromWire", "core-wire.go", "truststores/dir.go"]}
{"id": "C86", "title": "A closed letter has what its suite promises", "statement": "A letter that Close makes for an envelope has exactly one key seal for every secret and every recipient of the envelope (keys, then passwords, then recipients) and exactly one signature for every sender, in order. If the suite promises confidentiality, the data of the letter is the plaintext sealed by the cipher under a key derived from one secret for each key seal, and there is at least one; if not, it is the plaintext, and signed. If it promises sender authentication, there are signatures, or secrets and no recipients; if not, none. If it promises recipient authentication, the letter is encrypted with key seals; if it promises integrity, it is sealed or signed.", "quantifier": "all envelopes, data, trust stores, random numbers, and all suites of the library", "why_tests_cant": "ranges over all envelopes with any number of secrets, senders and recipients", "anchors": ["suites.go", "core.go:Close", "session.go:newSession", "envelope.go:Correspondence"]}
{"id": "C87", "title": "Every participant contributes to the key of a letter", "statement": "The key of a letter of an encrypting suite is derived from one secret for each secret and recipient of the envelope, in the order of the key seals: the shared key itself, what the password tool derives from the password and the nonce of the letter, or the key that was established with the recipient's public key and is what the seal at this position conveys. If one of them cannot be established, closing fails. Opening derives the key from the same list: the letter's data is decrypted with nothing else.", "quantifier": "all envelopes and letters, trust stores, random numbers, and all encrypting suites of the library", "why_tests_cant": "ranges over all envelopes with any number of participants, and over all letters presented for opening", "anchors": ["core.go:setupClosingKeyMaterial,setupOpeningKeyMaterial", "core-wire.go", "session.go"]}
{"id": "C88", "title": "Two people who exchange their exported keys can write to each other", "statement": "Alice and Bob each have a key pair in their own directory trust store. Each runs export for the own ID and import for the text of the other, successfully. Then each store knows the public key of the other under the other's ID, everything else in it is unchanged, and whatever Alice closes with herself as sender or nobody and Bob as recipient, Bob opens with his store and gets her data.", "quantifier": "all trust stores, key pairs, names, tools, data, random numbers, and ways of writes to end", "why_tests_cant": "ranges over all contents of two trust stores and all letters, through text format, store and cryptographic core together", "anchors": ["cmd/cmd-import-export.go", "import_export.go", "truststores/dir.go", "core.go", "envelope.go"]}
{"id": "C89", "title": "A session at rest holds no key of any letter", "statement": "After any sequence of calls to Close, Open and Verify on a session, whether they succeeded or failed, the tools of the session hold no key or nonce of any letter: each key and nonce buffer is overwritten with 0xFF or empty, and the hashers that hash for other tools hold no part of a message. The same holds for a wire session after every letter it sends or receives.", "quantifier": "all sessions of all registered suites, all sequences of operations, all letters and data, all failures, and all histories of wire letters", "why_tests_cant": "ranges over all sequences of operations and all points at which one of them fails", "anchors": ["core.go:Close,Open,Verify,setup,reset", "core-wire.go", "tools/toollogic.go", "tools/all"]}
{"id": "C90", "title": "A letter opens only with the secrets it was closed with", "statement": "A letter of an encrypting suite, closed for any number of shared keys, passwords and recipients, opens only for somebody whose trust store and password prompt give, for every participant the letter names, what yields the very secret that was used when closing: the same shared key, a password from which the same key is derived, and a private key that agrees with the closer's on the established key. With a different key, password or private key for any single participant, Open returns an error, whatever else the opener has.", "quantifier": "all envelopes of registered encrypting suites, all data and random numbers, and all trust stores and callbacks of the opener", "why_tests_cant": "ranges over all wrong secrets and all combinations of participants", "anchors": ["letter.go:Open,Envelope", "core.go:setupClosingKeyMaterial,setupOpeningKeyMaterial", "envelope.go:prepSignets", "session.go"]}
{"id": "C91", "title": "A file closed for a correspondent arrives", "statement": "Alice and Bob each have a key pair in their own directory trust store, export it and import the other's export, successfully. Alice has an envelope that refers to herself as sender (or nobody) and to Bob as recipient. If `jess close FILE with ENVELOPE` reports success, Bob's `jess open` of the file it wrote, wherever it was moved, succeeds and writes exactly the original content.", "quantifier": "all stores, key pairs, tools, names, envelopes over registered suites, file contents, working directories, flags, random numbers", "why_tests_cant": "ranges over all states of two trust stores and two disks and all files, across six commands", "anchors": ["cmd/cmd-close.go", "cmd/cmd-open.go", "cmd/cmd-import-export.go", "truststores/dir.go", "core.go", "README.md"]}
{"id": "C92", "title": "A session depends on no algorithm but those of its suite", "statement": "What closing, opening and verifying return in a session, and every history of a wire session, depends on the algorithms named by the suite of the session only: two cryptographic libraries that agree on these give the same letters, plaintexts and errors, however they differ on all other algorithms (for example because one of those is broken).", "quantifier": "all sessions of all suites, all pairs of libraries, letters, data, random numbers, states; histories of wire sessions of any length", "why_tests_cant": "ranges over all possible behaviours of the algorithms that are not in the suite", "anchors": ["session.go", "core.go", "tools/tool.go", "core-wire.go"]}
{"id": "C93", "title": "No operation meets a method that is not implemented", "statement": "All tools share one interface whose methods by default return an error (not implemented), and tools get the hash function they ask for at run time. No operation on sessions, letters or keys ever calls a method its tool does not implement, or a method that asks for a hash function the instance does not have: for every suite a session accepts, results are those of the algorithms themselves.", "quantifier": "all tool IDs a session accepts, all envelopes, letters, data, keys, libraries", "why_tests_cant": "ranges over all suites (combinations of tools and hash functions) and all inputs; the interface hides missing methods from the compiler", "anchors": ["tools/toollogic.go", "tools/gostdlib", "tools/ecdh", "tools/blake3", "session.go"]}
{"id": "C94", "title": "Closing a letter uses every random value for one thing only", "statement": "When a letter is closed, the nonce, the temporary key pair for each recipient and each signature are made with random values of their own: no draw of the random source is used twice. In particular no two recipients of a letter are given the same public key, unless the random source gives the same output twice. The same holds for every letter of a wire session: the nonce and the keys of the handshake are made with random values of their own.", "quantifier": "all envelopes, suites, numbers of secrets, recipients and senders, data, random sources, states of the session; histories of wire sessions", "why_tests_cant": "a value that is used twice still gives letters that open; ranges over all envelopes and random sources", "anchors": ["core.go", "core.go:setupClosingKeyMaterial", "session.go", "tools/toollogic.go", "core-wire.go:generateLocalKeyExchangeSignets"]}
{"id": "C95", "title": "A file signed by a correspondent verifies, and the report names the signer", "statement": "Alice has a key pair in her directory trust store, exports it, and Bob imports what she exported. If `jess sign FILE with ENVELOPE` reports success for an envelope that refers to her, then Bob's `jess verify` of the file, or of its signature file, wherever both were moved, succeeds, for any metadata he asks for that she signed; the report says that the verification is OK, names Alice with the name of her key and her ID and nobody else, and lists exactly the signed metadata.", "quantifier": "all stores, key pairs, names, envelopes over the suites for signing, file contents, previous signature files, metadata, flags, random numbers", "why_tests_cant": "ranges over all states of two trust stores and a disk and all files, across five commands", "anchors": ["cmd/cmd-sign.go", "cmd/cmd-verify.go", "cmd/format_sig.go", "cmd/cmd-import-export.go", "filesig/helpers.go", "truststores/dir.go", "core.go"]}
{"id": "C96", "title": "Two people with an exported key can talk over a wire", "statement": "Bob has a key pair in his directory trust store and exports it; Alice imports what he exported. Alice starts a wire session with an envelope that refers to Bob as recipient; Bob creates his session from the first letter he reads, with his trust store. They write letters to byte streams and read them from there. Whatever they send, in whatever interleaving, each gets exactly the data the other one sent, in order, with nothing missing, added or repeated, and everything that has arrived can be read.", "quantifier": "all stores, key pairs, envelopes with recipients, data, interleavings of sends and receipts, random numbers", "why_tests_cant": "ranges over all histories of two parties of any length and all stores and envelopes", "anchors": ["core-wire.go", "session-wire.go", "letter-wire.go", "envelope.go", "import_export.go", "cmd/cmd-import-export.go", "truststores/dir.go"]}
{"id": "C97", "title": "A file protected with passwords opens with the same passwords, and with no others", "statement": "Alice closes a file with an envelope that has only passwords, which she types at the prompts, and `jess close` reports success. Then each password was typed twice and reaches the security level of the suite, and Bob who types the same passwords when `jess open` asks gets exactly the content; he needs no trust store and no keys. If for one of the passwords he types another one, `jess open` writes nothing and does not report success.", "quantifier": "all passwords, dialog answers, files, envelopes with passwords over the registered suites, output flags, random numbers", "why_tests_cant": "ranges over all passwords and dialogs of two commands on two computers; a wrong password must fail for every letter", "anchors": ["cmd/cmd-close.go", "cmd/cmd-open.go", "cmd/password.go", "password.go", "session.go", "core.go", "letter-file.go"]}
{"id": "C98", "title": "Letters and envelopes use only the entries of the trust store that they name", "statement": "What Open, Verify and WireCorrespondence of a letter return, and what Correspondence and WireCorrespondence of an envelope return (data, session or error), depends on nothing in the trust store but the entries of the IDs they name: for letters the private entries of the key seals and the recipient entries of the signatures, for envelopes the private entries of secrets and senders and the recipient entries of recipients. So storing, replacing, importing or deleting any other entries of a directory store, and crashes while doing that, never change what a letter opens to or what an envelope does.", "quantifier": "all letters (also forged ones), envelopes, trust stores, histories of store operations of any length ending in any way", "why_tests_cant": "ranges over all pairs of stores and all histories including crash points", "anchors": ["envelope.go:prepSignets", "letter.go:Open", "letter.go:Verify", "letter.go:WireCorrespondence", "truststores/dir.go", "truststores/io.go"]}
{"id": "C99", "title": "A trust store can be restored from backups and exports", "statement": "The private signets of a directory trust store are backed up in text form, its recipients and envelopes exported, and the texts imported into another store, in any order. If the imports succeed, the restored entries are the same as in the first store, all others as they were, and every letter whose key seals refer to restored private signets and whose signatures to restored recipients opens, verifies or fails exactly as with the first store; envelopes that refer to restored entries give the same sessions.", "quantifier": "all stores, entries, texts in short or long format, orders and repetitions of imports, letters and envelopes", "why_tests_cant": "ranges over all contents of two stores, all letters and all orders of imports", "anchors": ["import_export.go:Backup", "import_export.go:Export", "cmd/cmd-import-export.go:handleImport", "truststores/dir.go", "truststores/io.go", "envelope.go", "letter.go"]}
{"id": "C100", "title": "Only the holders of the recipients' private keys read the first letter of a wire session", "statement": "The first letter a client sends in a wire session is read only by a server whose trust store has, under the ID of every recipient, a private key that makes of the ephemeral key in the letter the very key that the client established with that recipient. A server that lacks one of them, or has another key under the ID, gets an error and no data.", "quantifier": "all wire-capable registered suites, envelopes, clients, random streams, data and servers (trust stores)", "why_tests_cant": "ranges over all servers, that is all trust stores, and all keys", "anchors": ["core-wire.go:sendHandshakeAndInitKDF", "core-wire.go:recvHandshakeAndInitKDF", "core.go:Close", "core.go:Open", "envelope.go:WireCorrespondence", "letter.go:WireCorrespondence"]}
{"id": "C101", "title": "A JSON file verifies only if all its checksums and signatures match", "statement": "VerifyJSONChecksum succeeds exactly if the text is a JSON document with at least one checksum and every checksum is the hash of the canonical document without the metadata. VerifyJSONSignature succeeds only if there is at least one signature and all are valid signatures of that content. Both verdicts depend neither on white space nor on the order of the members, and a document whose content was changed does not verify with the old checksum.", "quantifier": "all texts, checksums, signatures, hash functions, trust stores", "why_tests_cant": "ranges over all documents and all changes of them", "anchors": ["filesig/json.go:VerifyJSONChecksum", "filesig/json.go:VerifyJSONSignature", "filesig/json.go:jsonUnpack"]}
{"id": "C102", "title": "The directory store selects exactly the wanted signets", "statement": "After any history of a directory trust store that began in an empty directory, SelectSignets succeeds and returns exactly the stored signets that match filter and schemes, each once, in whatever order the directory is walked. On arbitrary files it succeeds exactly if every signet file can be read, and then returns the wanted ones among them.", "quantifier": "all histories of operations, filters, scheme lists, walk orders, and all directory contents", "why_tests_cant": "ranges over all histories and orders", "anchors": ["truststores/dir.go:SelectSignets", "truststore.go:filterSignet"]}
{"id": "C103", "title": "Keys survive storing, and public signets never give a private key", "statement": "For each scheme StoreKey then LoadKey restores the key pair, or the public key if there is no private one; loading a signet flagged public never yields a private key, whatever bytes are stored; every key that is accepted has version 1; X25519 accepts exactly version 1 with a valid public key (and 32 bytes of private key), Ed25519 exactly version 1 with keys of exactly the right size; loading never panics; GenerateKey only adds keys to a signet without any, and a failure leaves the signet as it was.", "quantifier": "all key values and byte strings, all signets", "why_tests_cant": "unbounded byte strings", "anchors": ["tools/ecdh/x25519.go", "tools/ecdh/nist.go", "tools/gostdlib/ed25519.go", "tools/gostdlib/rsa-keys.go", "signet.go:StoreKey,LoadKey,GenerateKey"]}
{"id": "C104", "title": "The keyring trust store answers like a map", "statement": "Whatever is done with a keyring trust store that has no entries yet, the answers of storing, getting and deleting signets and envelopes are those of a map from (ID, is-public) and from envelope names; its self check entry does not matter. Getting a signet also loads its key.", "quantifier": "all sequences of operations, signets, envelopes, and refusals of the keyring", "why_tests_cant": "all histories", "anchors": ["truststores/keyring.go"]}
{"id": "C105", "title": "Global flags: store, level, key size and missing attributes", "statement": "A command works with the trust store given by --tsdir, else by JESS_TS_DIR, JESS_TSDIR, --tskeyring, JESS_TS_KEYRING or JESS_TSKEYRING, and fails if that cannot be opened, without falling back to another one. After --seclevel everything that a session uses has that level; --symkeysize sets the minimum key size; jess open writes data only of letters whose suite provides all attributes not named by --no. The flags are accepted exactly if the store opens and --no names only C, I, R and S.", "quantifier": "all flags, environment variables, machines, letters and commands", "why_tests_cant": "ranges over all combinations of flags, variables and letters", "anchors": ["cmd/main.go:initGlobalFlags"]}
{"id": "C106", "title": "Every verdict of a bulk verification is true", "statement": "What jess verify reports for several files or directories is a list of entries, each printed as one line: a file reported OK is verified and signed by those named, a file reported FAIL does not verify, a WARN is about a path that cannot be read. Every visited path is on an entry. The command succeeds exactly if all entries are OK, and reports a failed signature exactly if there is a FAIL.", "quantifier": "all arguments, directory trees, file contents and trust stores", "why_tests_cant": "ranges over all trees and contents", "anchors": ["cmd/cmd-verify.go:verifyCmd,verify,verifyLetter,verifySig"]}
{"id": "C107", "title": "jess verify of a directory misses nothing", "statement": "If jess verify succeeds for one directory, every entry below it, at any depth, could be read, and every one whose name ends with .sig or .letter is verified (or is a big letter which the user declined to load).", "quantifier": "all directory trees, contents and trust stores", "why_tests_cant": "all trees", "anchors": ["cmd/cmd-verify.go:verifyCmd,verify"]}
{"id": "C108", "title": "Closing a letter changes no memory of the caller", "statement": "Close of a session of any suite of the library returns the letter that the description on values gives, and changes no byte of the caller's data nor of any other memory, also if the letter shares memory with the data.", "quantifier": "all sessions of registered suites, data, slices (offset, length, capacity) and heaps", "why_tests_cant": "aliasing depends on capacities and on all later appends", "anchors": ["core.go:Close", "tools/gostdlib/aes-gcm.go", "tools/gostdlib/chacha20poly1305.go"]}
{"id": "C109", "title": "The registries do not depend on the order of initialisation", "statement": "Whatever the order in which packages are initialised and however lists are sorted, tools.Get and hashtools.Get find each declared tool by its name with its declared properties, and nothing else; AsList lists all of them, sorted by name. The names tell the truth about key sizes, curves, digest sizes and levels; a hash tool computes, reports and labels one and the same hash function, and no two tools compute the same one. The recommended toolsets name registered tools.", "quantifier": "all orders of initialisation, sorting algorithms, and names", "why_tests_cant": "ranges over all orders of initialisation", "anchors": ["tools/tools.go:Register,Get,AsList", "tools/tool.go:With", "hashtools/tools.go:Register,Get,AsList", "hashtools/hashtool.go:With,LabeledHasher", "defaults.go"]}
{"id": "C110", "title": "jess list shows everything that is registered", "statement": "jess list prints each registered suite, tool and hash tool on exactly one line, with its attributes, purpose, level, author and comment in columns, whatever widths the columns get.", "quantifier": "all ways to align columns", "why_tests_cant": "ranges over all alignments; there are no tests of the command", "anchors": ["cmd/cmd-list.go", "cmd/format.go:formatColumns,formatRequirements,formatSuiteStatus", "requirements.go:ShortString", "tools/tool.go:FormatPurpose"]}
{"id": "C111", "title": "Backups and exports of key pairs and envelopes restore them", "statement": "The backup text of a private signet with a key pair, whatever its (UTF-8) name, parses as a sender to the same signet with the same keys; the export text parses as a recipient to its public part, without private key; the text of an envelope parses to the envelope without its keys. The parsers of other kinds reject the text.", "quantifier": "all signets with a key pair of a signing or exchange scheme, names, envelopes, short and long format", "why_tests_cant": "unbounded strings and keys", "anchors": ["import_export.go", "signet.go:SignetFromBytes", "envelope.go:LoadEnvelope"]}
{"id": "C112", "title": "At most five hex digits of a password's hash leave the machine", "statement": "While a password is created, nothing is sent before the user agrees to the check; then at most one request, with the first five hex digits of the hash of the password that was typed twice. Passwords whose hashes agree in the first 20 bits cause the same request.", "quantifier": "all passwords, dialogs, answers of the service and demanded levels", "why_tests_cant": "secrecy is about all pairs of passwords", "anchors": ["cmd/password.go:createPassword,checkForWeakPassword"]}
{"id": "C113", "title": "Keys and nonces have the right size", "statement": "The key size of every session is the largest key size of its tools, or the one set globally if that is more; for suites of the library that encrypt it is never less than 32 bytes. Every tool gets a key of the size it declares (or of the session's key size) and every cipher a nonce of its size, which is not zero. Keys derived from passwords and keys made for encapsulation have the session's key size.", "quantifier": "all suites, envelopes, letters, primitives and global settings", "why_tests_cant": "ranges over all sessions and settings", "anchors": ["session.go:newSession", "helper.go:NewSessionKey,NewSessionNonce,DefaultSymmetricKeySize", "core.go:setupClosingKeyMaterial"]}
{"id": "C114", "title": "Letters, signets, envelopes and file data survive their formats", "statement": "What is written to letter files, armored and JSON signatures, trust store files and texts is read back equal, whatever bytes the IDs, names, schemes, suite IDs, keys, seals, payloads and metadata consist of; or else writing fails.", "quantifier": "all letters, signets, envelopes and signed file data; all byte strings in their fields", "why_tests_cant": "unbounded nested data, all byte strings", "anchors": ["letter-file.go", "letter.go:ToDSD,LetterFromDSD", "signet.go:ToBytes,SignetFromBytes", "envelope.go:ToBytes,EnvelopeFromBytes", "truststores/io.go", "filesig/main.go"]}
{"id": "C115", "title": "A binary tells what it was built from", "statement": "Every command starts. The version of a binary that was built from a modified working tree ends with \"dev build\", that of another one is the version it was built with (blanks for underscores); jess version shows it together with the commit, called dirty exactly if the tree was modified.", "quantifier": "all build settings (any order, repeated keys), all version strings", "why_tests_cant": "depends on how the binary was built; unbounded strings and settings", "anchors": ["cmd/cmd-version.go"]}
{"id": "C116", "title": "Keyring stores with different names are separate, and opening one changes nothing in it", "statement": "Keyring trust stores are opened by name over one keyring of the system. Whatever is stored, got and deleted in stores of different names, and however often stores are opened in between (also when the self check of opening fails), each store answers as if it was alone: as a map of signets and envelopes that only its own operations change. Opening succeeds iff the keyring takes the self check entry and returns what it was given.", "quantifier": "all histories of opening (with every kind of failure of the keyring) and of using stores of any names; all signets and envelopes; all contents of the keyring that are not of this library", "why_tests_cant": "histories of several stores are unbounded, and names and IDs are arbitrary texts", "anchors": ["truststores/keyring.go: NewKeyringTrustStore, GetSignet, StoreSignet, DeleteSignet, GetEnvelope, StoreEnvelope, DeleteEnvelope"]}
{"id": "C117", "title": "What was read can be passed on unchanged", "statement": "Every letter, signet and envelope that was read from JSON or CBOR, whatever bytes it was read from (other writers, unknown members, escapes, texts that are not UTF-8), is written by the library in each of its formats without error, and what is written is read as exactly the same letter, signet or envelope. So storing, exporting and forwarding what was received loses nothing.", "quantifier": "all byte strings that are accepted by LetterFromJSON, LetterFromDSD, the signet and envelope loaders; all formats of writing", "why_tests_cant": "inputs are arbitrary bytes, and nesting and texts are unbounded", "anchors": ["letter.go: ToJSON, LetterFromJSON, ToDSD, LetterFromDSD", "letter-file.go: ToFileFormat", "signet.go: ToBytes, SignetFromBytes", "envelope.go: ToBytes, EnvelopeFromBytes", "truststores/io.go"]}
{"id": "C118", "title": "An envelope that passes the check can be used", "statement": "If Check of an envelope returns no error, closing a letter with the envelope works, whatever is written, as long as the algorithms and the source of random numbers do their work; and after the check the envelope can be used again without the trust store and without asking for passwords, with the same result.", "quantifier": "all envelopes, trust stores, password callbacks, settings, random numbers and messages", "why_tests_cant": "the sets of signets, their order, and what trust stores and callbacks return are unbounded", "anchors": ["envelope.go: Check, Correspondence, PrepareSignets, fillPassword", "session.go: newSession", "core.go: Close"]}
{"id": "C119", "title": "Exactly the envelopes that fit their suite are accepted", "statement": "An envelope can be used for writing or opening if and only if its suite exists, its signets can be prepared, and it then fits the suite: it has Ed25519 senders exactly if the suite signs, X25519 recipients exactly if the suite has recipients, a password exactly if the suite is made for passwords, a key if the suite has nothing but keys; no key or other signet the suite has no use for; and nothing in it is below the security level that is demanded. Nothing that fits is refused.", "quantifier": "all registered suites, envelopes, trust stores, password callbacks, settings and algorithms", "why_tests_cant": "the number and kinds of signets, the levels of passwords and keys and the settings are unbounded; that nothing else is refused is a statement about every envelope", "anchors": ["envelope.go: Correspondence, PrepareSignets", "session.go: newSession, checkSecurityLevel, calcAndCheckSecurityLevel", "suites.go: suites"]}
{"id": "C120", "title": "Whoever has the keys can write, and whoever has the counterparts reads what was written", "statement": "If the writer's trust store has the private keys of the senders and the public keys of the recipients named in an envelope, and the suite is one for senders, recipients or both as the envelope has them, then getting a session, closing a letter over any data, and opening the letter with a trust store that has the public keys of the senders and the private keys of the recipients all succeed, and opening returns the data. The same holds for envelopes with keys that both have and for passwords that both enter, none empty or below the demanded level. All this is provided the demanded security level is not above 128 and the algorithms and the source of random numbers do their work. The same for `jess close` on a file that can be read, with an output that can be written, and `jess open` on what it wrote. The key pairs may come from an exchange: exporting and importing them succeeds, too.", "quantifier": "all registered suites, lists of senders, recipients, keys and passwords, key pairs, pairs of trust stores, password callbacks, settings, random numbers and messages", "why_tests_cant": "the numbers of signets, the contents of trust stores and the messages are unbounded, and that nothing fails is a statement about every one of them", "anchors": ["envelope.go: Correspondence, PrepareSignets, prepareSignets", "session.go: newSession", "core.go: Close, Open", "letter.go: Envelope, Open", "cmd/cmd-close.go", "cmd/cmd-open.go"]}
{"id": "C121", "title": "Whoever has the private key can sign a file, and whoever has the public key verifies it", "statement": "If the signer's trust store has the private keys of the senders of an envelope with a suite that only signs, then signing any file that can be read succeeds, with a signature file that does not exist or has no incomplete signature block, and verifying the file with its signature file succeeds for everyone whose trust store has the public keys, for any required metadata that was signed. The same for `jess sign`, if the signature file can be written, and `jess verify` of the file afterwards. All this is provided the demanded security level is not above 128 and the algorithms, the serializers and the source of random numbers do their work.", "quantifier": "all suites for signing, lists of senders, key pairs, pairs of trust stores, settings, file contents, earlier signature files, metadata and times", "why_tests_cant": "the number of signers, the files, the earlier content of the signature file and the trust stores are unbounded, and that nothing fails is a statement about every one of them", "anchors": ["filesig/helpers.go: SignFile, VerifyFile", "filesig/main.go: SignFileData, VerifyFileData", "cmd/cmd-sign.go", "cmd/cmd-verify.go", "core.go: Close, Open"]}
{"id": "C122", "title": "Two people who start with nothing can write to each other", "statement": "If two people have a directory trust store each in which files can be written, and each runs `jess generate` with a name (an Ed25519 key pair for the one who writes, an X25519 key pair for the one who reads), `jess export` of the new ID, and `jess import` of the other's text, then every step succeeds; afterwards every envelope from the first (or nobody) to the second, with a suite made for it, is accepted, every message can be written with it, and the second reads it. This holds whatever else is in the two directories.", "quantifier": "all directories, contents of trust stores, names, random numbers, key pairs, envelopes with any number of references, registered suites, settings, and messages", "why_tests_cant": "the contents of the directories, the envelopes and the messages are unbounded, and that nothing fails is a statement about every one of them", "anchors": ["cmd/cmd-generate.go", "cmd/cfg-signet.go newSignet", "cmd/cmd-import-export.go handleExport, handleImport", "import_export.go", "truststores/dir.go", "session.go: newSession", "core.go: Close, Open"]}
{"id": "C123", "title": "A file signed by somebody who starts with nothing is verified by everyone who imported the key", "statement": "If somebody runs `jess generate` with a name (an Ed25519 key pair) and `jess export` of the new ID in a directory trust store in which files can be written, and somebody else imports the text into theirs, then every step succeeds; afterwards `jess sign` of any readable file, with an envelope that names the new signet as its only senders (any number of references), succeeds if the signature file can be written and is absent or has no incomplete block, and `jess verify` of the file by the other succeeds, for any required metadata that was signed.", "quantifier": "all directories, contents of trust stores, names, random numbers, key pairs, envelopes for signing, files, earlier signature files, metadata, settings and times", "why_tests_cant": "the directories, the files and the earlier signature files are unbounded, and that nothing fails is a statement about every one of them", "anchors": ["cmd/cmd-generate.go", "cmd/cfg-signet.go newSignet", "cmd/cmd-import-export.go handleExport, handleImport", "cmd/cmd-sign.go", "cmd/cmd-verify.go", "filesig/helpers.go: SignFile, VerifyFile"]}
{"id": "C124", "title": "A wire session never gets stuck", "statement": "In a wire session between two parties with one of the library's suites: after everything sent and received so far, in whatever interleaving, each party can close the next message, whatever it is (up to 2^38-64 bytes), including the letters which offer or answer a handshake or switch keys, and the next letter on its way in each direction opens to exactly the message that was sent. No state is reached in which a session can only fail.", "quantifier": "all interleavings and histories of sending and receiving of both parties, messages, random numbers, envelopes with recipients, trust stores and settings", "why_tests_cant": "A session has unboundedly many states (handshake offers, answers and key switches crossing in any order); that none of them is a dead end is an invariant over all histories.", "anchors": ["/repo/core-wire.go", "/repo/core.go Session.Close, Open", "/repo/session-wire.go", "/repo/session.go", "/repo/envelope.go WireCorrespondence"]}
{"id": "C125", "title": "A conversation with somebody who starts with nothing works and never gets stuck", "statement": "If Bob runs `jess generate` with a name (an X25519 key pair) and `jess export` of the new ID in a directory trust store in which files can be written, and Alice imports the text into hers, then every step succeeds; afterwards an envelope that names the new signet as its only recipients (any number of references up to 255) and one of the suites for wire sessions starts a wire session, and over byte streams, after everything sent and received in whatever interleaving, each of the two can close the next message whatever it is, all that has arrived is read, each got exactly what the other one sent, and what is on its way can be read to the end, until each has got everything.", "quantifier": "all directories, contents of trust stores, names, random numbers, key pairs, envelopes, interleavings and histories of a conversation, messages, settings", "why_tests_cant": "It combines the success of four commands for all inputs and stores with an invariant over unboundedly many states of the handshake.", "anchors": ["/repo/cmd/cmd-generate.go", "/repo/cmd/cmd-import-export.go", "/repo/envelope.go WireCorrespondence", "/repo/session-wire.go", "/repo/core-wire.go", "/repo/letter-wire.go"]}
