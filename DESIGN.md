# Formal model of safing/jess in Lean 4 — design

Layout
- `lean/Verif/Model/*.lean` – the executable model, one file per group of source files. Every definition cites the
  `/repo` file and lines it models and names its simplifications.
- `lean/Verif/Lemmas/*.lean` – helper lemmas.
- `lean/Verif/Props/*.lean` – the property theorems, with independent specifications and non-vacuity examples.
- `properties.jsonl`, `MANIFEST.json` – properties and which theorem proves which one.
- `seeded/LOG.jsonl` – mutation log (wrong programs tried against the theorems).

## Modelling conventions
- Go `[]byte` and `string` are both `Bytes = List UInt8` (Go strings are byte strings). A nil slice and an empty slice are
  identified unless a property needs the difference.
- Go `(value, error)` returns are `Except Err α`. A Go panic (index out of range, nil dereference) is a distinguished
  error `Err.panic`, so "never panics" is a provable statement.
- `uint64` numbers on the wire are `Nat` with explicit `< 2^64` checks in the varint decoder, as in the dependency.
- Mutation through pointers becomes returning the new value; where aliasing matters (C49) buffers are modelled explicitly.
- Cryptographic primitives (AEADs, ciphers, hashes, KDFs, DH, signatures, RSA, password KDFs) are an abstract structure
  `Prims` of total functions over bytes. Functional correctness (decrypt∘encrypt = id, DH commutes, …) is a hypothesis
  `Prims.Correct`; security theorems use explicit idealised hypotheses (e.g. injectivity/unforgeability). Concrete
  instances satisfying the hypotheses are given (non-vacuity).
- Randomness is an explicit argument.

## Plan per property
| id | model | proof |
|---|---|---|
| C01–C03 | `Letter`, container/varint reader, `toWire`, `letterFromWire` | round trip by composition of per-field parser lemmas; totality by construction + size bound |
| C04 | `toFileFormat`, `letterFromFileFormat` over an abstract header codec | round trip |
| C05–C08 | `compileAD`, `compileSigningData`, hasher feed | injectivity by parsing; collisions as concrete witnesses (negations) |
| C09 | `Requirements` as a list | list/set reasoning |
| C10, C11, C51–C53 | `Session`, `close`, `open`, `newSession`, `prepSignets`, `Letter.open` over `Prims` | pipeline inversion, loop alignment lemmas |
| C12–C15, C26 | same | case analysis of `open`; idealised AEAD/signature hypotheses |
| C16–C18 | `newSession` | fold invariants over the tool list |
| C19 | suite table and `registerSuite` | evaluation over the whole finite table lifted to ∀, induction over registrations |
| C20–C25 | wire session state machine, two parties + FIFO channels | invariant by induction over schedules |
| C27–C29 | `Signet`, key codecs, text formats, CBOR/base58 abstract | round trips, independence (two-run) statements |
| C30–C34 | map store, directory store over a model file system with crash points | refinement to a map |
| C35 | ring buffer cache and concurrent supply | refinement to a queue, invariant over interleavings |
| C36 | labeled hash and its text forms | round trip; which texts are accepted (inverse of the decoders) |
| C37 | password estimate over ℕ/ℝ | counting lemmas; floating point is not modelled |
| C38–C40 | line scanner, text checksum, armor regexps as explicit matchers | list induction; counterexamples as negations |
| C41–C44 | file signatures, JSON (abstract gjson/sjson/pretty), verify command | soundness by case analysis |
| C45–C48 | RNG, RSA sizes, Poly1305 state machine, KDF material | induction / witnesses |
| C49 | explicit buffers for in-place operations | witness / proof |
| C50 | `prepSignets` | characterisation theorems, witness for the spill-over |
| C58 | wire session + wire format, two parties over byte streams | simulation by the network of letters of C20 |
| C59 | `close` + wire format + `open` | shape of closed letters, composition with C01 and C10 |
| C60 | `runMACs` in `close`/`open`, any suite | relational spec `MacParts`; composition with the associated data theorem (C05) |
| C61–C64 | the file commands over a file system with failing writes | case analysis of the commands; composition with C04, C10, C38, C42, C43 |
| C65 | directory store over the file system | refinement of C33, loop invariant of the walk |
| C76 | key sizes of sessions, tools, password keys; sessions under two settings | characterisation of the key size; the sessions of two settings differ in level and key size only, and opening depends on these only through password keys |
| C77 | `initGlobalFlags` as a function of flags and environment; text commands with an optional trust store | case analysis, composed with C09 and C17 |
| C78 | offsets of all reads of the key derivation in `setup` and in the wire handshake | induction over the tools, with the positions of the stream as witness |
| C79 | the loops of the verify command with what they print | invariant over the visited paths: the output is a list of true lines, and the counters count them |
| C80 | wire sessions on a heap of arrays; keys of peers may refer to the caller's memory | refinement to the wire sessions on values, with an invariant: own memory separate, memory referred to kept |
| C81 | `jess list` and the lines of the dialogs | a small specification of columns, enumerations and numbers, read back from the text; permutation of the registries; decoding of the text for envelopes |
| C82 | the calls of `Register` in the `init` functions, templates (`With`), map and sorted list | permutation invariance of map and sorted list; evaluation of the declared tables |
| C83 | signets with the Go types and the memory of their keys, `LoadKey`, `AsRecipient`, `BurnKey` of each tool | which slices and cells are written; loading again from the changed stored key |
| C84 | the models of C05, C07, C12, restricted to envelopes of callers (suite looked up by ID) | at most one seal for each secret and recipient, so at most 16, for which the framing is injective |
| C85 | the models of C03, C26 and the directory store | an invariant of the store: entries of the store are found under their own ID and kind and hold no loaded keys |
| C86 | the models of C84 | the tool of each seal is the only one of its kind in the suite, so seals match the signets one by one |
| C87 | the models of C84 | closing and opening collect key material along the same list of participants |
| C88 | `importDir`: import with the directory store; export, text format, store and core as before | composition: text format, refinement of the store by a map, close and open with two stores |
| C89 | the models of the core and of the wire session, with the state of tools and hashers between operations | invariant over all sequences of operations: every operation ends in `reset`, and `reset` overwrites what setup filled |
| C90 | the models of C87 | the secrets of closer and opener have equal lengths position by position, so that equal derivation input means equal secrets |
| C91 | the models of C61, C66 and C88 | the exchange leaves in each store what the commands need, then the round trip of the commands |
| C92 | no model of its own | two arbitrary libraries that agree on the tools of the session; every function of the model of sessions gives the same result |
| C93 | Model/Methods: the methods every tool overrides, the dummies of the base, the hash functions an instance has | required methods are available for every accepted tool ID, then C92 with the library as it is reached through the interface |
| C94 | the models of C86 | the counter of draws through the key collection and the signatures, with the position of each seal |
| C95 | the models of C42, C66, C73 and C88 | the letter of the signature file is the one the session closed, its signatures have the IDs of the senders; then the report of C73 |
| C96 | the models of C58, C66 and C88 | what was imported and what is stored are counterparts; then the delivery theorem for byte streams |
| C97 | the models of C61, C74 and C90 | the session of an envelope with passwords only; every secret is the one typed twice; then the commands, and C90 for another password |
| C98 | the models of C10, C20, C33 and C50 | induction over the signets that are prepared; for histories induction over the operations with the frame theorem of C34 |
| C99 | the models of C28, C33 and C88 | every text parses to the entry it comes from; induction over the imports; then C98 |
| C100 | the models of C44 and C90 | inversion of closing and opening a first letter, then equality of the derived keys gives equality of the secrets piece by piece |
| C101 | the model of C43 | the verifier unfolded into its checks; canonical form is a function of the sorted document |
| C102 | the model of C33 | refinement of C33, then the walk visits exactly the files of the entries |
| C103 | the model of C29 | case analysis over the key formats |
| C104 | the model of C57 | simulation, the keys of entries of different kinds are distinct |
| C105 | the model of C77 | case analysis over flags and variables; C17 for the level |
| C106 | the model of C79 | induction over the visits with the list of entries as invariant |
| C107 | the model of C44 | the lexical order puts a letter before its signature file; induction over the tree for the entries |
| C108 | the memory model of C49 | simulation between the memory and the value model, with a frame for all other arrays |
| C109 | the model of C82 | induction over the registrations; sortedness and distinct names determine the list |
| C110 | the model of C81 | the lines of the aligned text are the rows; registered tools are the sorted list of C82 |
| C111 | the models of C28 and C29 | the last section after the last colon is the base58 text; then C29 |
| C112 | the model of C74 | case analysis of the dialog |
| C114 | `Model/Formats`: writers and readers of CBOR, MsgPack, JSON for letters, signets, envelopes, file data | round trip by induction over values; exact conditions on texts; refuted for texts that are not UTF-8 |
| C118 | `Model/Check` over `Model/LetterOps`, `Model/Core` | progress: every step of Close succeeds for a session of a registered suite, exactly under three conditions on the envelope |
| C119 | the models of C16 to C18 | both directions: no check of `newSession` fails for an envelope that fits a registered suite, and whatever passes fits; the suites are compared with their shapes by evaluation |
| C120 | the models of C1, C118, C119 | preparation succeeds for stored key pairs; then C119 for the session, C118 for closing, C88 for opening |
| C121 | the models of C42, C61, C120 | the letter exists by C120; the steps of `SignFile` around it are computed; verification by C42, commands by C61 |
| C122 | the models of C28, C66, C88, C120 | each command is computed on what the one before left in the directory; storing succeeds because the directory refines a map (C24) |
| C123 | the models of C42, C66, C120, C121 | the exchange of C122 gives the two trust stores which C121 asks for; that every stored signet of the verifier has a name (verifying reads it) is carried through the import |
| C124 | the wire-session model of C20, over every interleaving of sending and receiving of both parties | invariant: the carry key and the pending material of both parties have the sizes that the key derivation needs, and the key pairs kept are of tools of the session; in every state with it, closing a letter succeeds |
| C125 | the models of C42, C58, C66, C96, C124 | the exchange of C122 gives the trust stores that C96 asks for; the requirements of a wire session are what the tools of the two wire suites provide; C124 is carried over to byte streams with the simulation of C58 |
| C117 | `Model/Formats`, `Model/LetterJson` | induction over the readers: all texts that are read are UTF-8 |
| C116 | `Model/KeyringOpen`: opening stores over the keyring of the system | refinement: a map for every name; induction over histories |
| C115 | `Model/Version`: the start of the command and `jess version` | settings as a list, last value counts; exact output |
| C113 | the model of C76 | fold invariants over the tools; induction over the setup of the tools |
| C75 | threads that prepare signets of shared objects, one step per access to the loaded keys; the store hands out the objects | invariant of objects and threads over all schedules; the store of a settled state is equivalent to the unused store |
| C74 | the password prompt with the sequence of typed texts and the HTTP service as parameters | induction over the tries and over the lines of the response; monotonicity of the level (C37) |
| C73 | the text printed by `jess verify` (single and bulk mode), byte by byte | the text is the concatenation of lines; split at line ends, filter by the first word, compare with the signatures of the parsed file |
| C72 | the dialogs over an arbitrary trust store with an invariant (`Trust.Tidy`), and the directory store as an instance | every list has a line per entry (cells short enough for the scanner), so every chosen line has a last word and every preselected entry a line; invariant over the rounds |
| C70 | the configure dialog (new envelope, edit rounds, in-place preparation, cleaning, saving) over an arbitrary trust store | invariant over the rounds: the edited envelope is the original references with prepared signets filled in; cleaning restores references; a session from the references equals the checked one up to level |
| C71 | the same on the directory store | refinement to the map store; only one entry differs |
| C69 | terminal dialogs: table formatting (text/tabwriter), word splitting, selection, and what is done with the selection | the line shown determines the ID for plain texts (splitting undoes padding); counterexamples for the others |
| C68 | wire sessions with a failing source of random numbers | invariant over histories; a stuck state that no history leaves |
| C66, C67 | `generate` over any trust store, instantiated with the directory store | composition with C28, C29, C33, C10 |

## Module map
| model | source files | properties |
|---|---|---|
| `Model/Basic`, `Container`, `Encoding` | `safing/structures` varint and container, hex, base64, base58 | all codecs |
| `Model/Letter` | `letter.go`, `letter-wire.go`, `letter-file.go` | C01–C08 |
| `Model/Requirements` | `requirements.go` | C09 |
| `Model/Tools` | `tools/tool.go`, `tools/tools.go`, `tools/*/*.go` (the `ToolInfo` tables), `hashtools/`, `suite*.go` | C16–C19 |
| `Model/Prims` | signatures of the primitives, `random.go`, `defaults.go` | all |
| `Model/Session` | `session.go`, data types of `envelope.go` and `signet.go` | C16–C18, C53 |
| `Model/Core` | `core.go`, `helper.go` | C10–C14, C51 |
| `Model/LetterOps` | `envelope.go` (correspondence, preparing signets), `letter.go` (Open, Verify) | C10, C13–C15, C26, C50, C52 |
| `Model/WireSession` | `session-wire.go`, `core-wire.go` | C20–C26, C54 |
| `Model/LHash` | `lhash/` | C36 |
| `Model/Support` | `password.go`, `random.go`, `rsa-keys.go` (sizes), `poly1305.go` | C37, C45–C47, C55 |
| `Model/KeyCodec` | `LoadKey`/`StoreKey` of x25519, nist, ed25519, rsa; `Signet.GenerateKey` | C29 |
| `Model/TextFormat` | `import_export.go`, serialization of `signet.go` and `envelope.go`, `cmd/cmd-import-export.go` | C27, C28, C56 |
| `Model/Stores` | `truststore.go`, `truststores/{dir,io,keyring}.go`, `filepath.Clean/Join`, a file system | C30–C34, C57 |
| `Model/Supply` | `supply/supply.go`, as a transition system of concurrent calls | C35 |
| `Model/FileText` | `filesig/text.go`, `filesig/text_yaml.go` | C38, C39 |
| `Model/Armor` | `filesig/format_armor.go` | C40 |
| `Model/FileSig` | `filesig/main.go`, `filesig/helpers.go` | C41, C42 |
| `Model/Json` | `filesig/json.go` | C43 |
| `Model/CmdVerify`, `Model/Report` | `cmd/cmd-verify.go`, `cmd/format_sig.go` | C44, C73 |
| `Model/Dialogs` | `cmd/cfg-envelope.go`, `cmd/cfg-signet.go`, `cmd/cmd-configure.go`, `cmd/cmd-manage.go`, `cmd/format.go` | C69–C72 |
| `Model/Password` | `cmd/password.go` | C74 |
| `Model/CmdLine` | `cmd/main.go` `initGlobalFlags`, arguments of `cmd/cmd-import-export.go` | C77 |
| `Model/BulkReport` | `cmd/cmd-verify.go` what a bulk verification prints | C79 |
| `Model/WireMemory` | `core-wire.go`, `core.go` wire sessions with slices | C80 |
| `Model/Listing` | `cmd/cmd-list.go`, `tools/tools.go` `AsList`, `hashtools` `AsList`, `cmd/format.go` | C81 |
| `Model/Registry` | `tools/tool.go`, `tools/tools.go`, `hashtools/`, `init` functions of all tools, `defaults.go` | C82 |
| `Model/Burn` | `helper.go` `Burn`, `signet.go` `Burn`, `BurnKey` and the memory of `LoadKey` of all tools | C83 |
| `Props/Library`, `Props/Received` | no model of their own | C84, C85 |
| `Props/Promises`, `Props/KeySecrets` | no model of their own | C86, C87 |
| `Model/Exchange`, `Props/Exchange` | cmd/cmd-import-export.go with the directory store | C88 |
| `Props/Reset` | no model of its own | C89 |
| `Props/OnlyWith` | no model of its own | C90 |
| `Props/Story` | no model of its own | C91 |
| `Props/Isolation` | no model of its own | C92 |
| `Model/Methods` | tools/toollogic.go:125-296, the methods of tools/gostdlib, tools/ecdh, tools/blake3 | C93 |
| `Props/Draws` | no model of its own | C94 |
| `Props/Details` | no model of its own | C66, C83 |
| `Props/DispatchWire` | no model of its own | C93 |
| `Props/StorySign` | no model of its own | C95 |
| `Props/StoryWire` | no model of its own | C96 |
| `Props/StoryPw` | no model of its own | C97 |
| `Props/Frame` | no model of its own | C98 |
| `Props/Restore` | no model of its own | C99 |
| `Props/OnlyWithWire` | no model of its own | C100 |
| `Props/DrawsWire` | no model of its own | C94 for wire sessions |
| `Props/IsolationWire` | no model of its own | C92 for wire sessions |
| `Props/LibraryKeys` | no model of its own | C16, C51 for the sessions of the API |
| `Props/WireForm`, `Props/SessionVerify` | no model of their own | the grammar of the wire format (C03), `Session.Verify` (C14) |
| `Model/Formats` | the formats of `dsd` (CBOR, MsgPack, JSON) for the structures of letter.go, signet.go, envelope.go, filesig/main.go | executable instances of the abstract codecs |
| `Vectors/Hash`, `Vectors/Ed25519` | nothing in /repo: executable instances of what the model leaves abstract (SHA-2, SHA-3, BLAKE2, BLAKE3; Ed25519) | no claims; see "Replaying real artifacts" |
| `Vectors/Files`, `Vectors/Run`, `Vectors/HashTest`, `Vectors/FileSigTest`, `Vectors/Misc` | nothing in /repo: test data of /repo | no claims; tests of the model |
| `Props/Tight` | no model of its own | names in texts (C28, C111), metadata order and failure line of reports (C73), detached JSON signatures (C43), generated signets |
| `Lemmas/Utf8` | UTF-8 and its repair | induction over characters |
| `Lemmas/Formats` | writers and readers of CBOR, MsgPack and JSON | round trips by induction over values |
| `Props/Formats` | C114; the abstract codecs are met by the formats | |
| `Props/FormatsClose` | C114 for closed letters | |
| `Model/KeyringOpen`, `Props/KeyringOpen` | truststores/keyring.go:28-47 `NewKeyringTrustStore` over one keyring of the system | C116 |
| `Model/Check`, `Props/Check` | envelope.go:95-98 `Check` | C118: progress of `Close` |
| `Props/Accepted` | C119: exactly which envelopes are accepted | |
| `Props/Deliver` | C120: writing and reading succeed | |
| `Props/DeliverSig` | C121: signing and verifying files succeed; `jess sign`, `jess verify` | |
| `Props/DeliverExchange` | C120 after an exchange of keys (C88) | |
| `Props/GenerateSucceeds` | C122: generating, exporting, importing, writing and reading succeed, from empty directories (C66, C88, C120) | |
| `Props/SignFromNothing` | C123: generating, exporting, importing, signing and verifying succeed (C121, C122) | |
| `Props/WireProgress` | C124: what a party of a wire session keeps in every reachable state, and that sending then succeeds | |
| `Props/WireFromNothing` | C125: generating, exporting, importing and starting a wire session succeed, and it never gets stuck over byte streams (C58, C122, C124) | |
| `Props/DeliverFiles` | C120 for `jess close` and `jess open`; uses Mathlib only to show that a total header serializer exists | |
| `Props/Reread` | C117: readers of JSON and CBOR give UTF-8 texts, so what was read survives | induction over the readers |
| `Props/Utf8Spec` | C114: the UTF-8 of the formats is the UTF-8 of Unicode (Lean's `Char`) | |
| `Model/LetterJson`, `Props/LetterJson` | letter.go:147-162 `ToJSON`, `LetterFromJSON` | C114 |
| `Props/FormatsStore` | C33, C57 over the JSON of Model/Formats instead of an abstract codec | |
| `Model/Version` | cmd/cmd-version.go | |
| `Props/Version` | C115 | induction over the build settings |
| `Model/Shared` | `envelope.go` `prepSignets`, `signet.go` `LoadKey`, `truststore.go` with concurrent sessions | C75 |
| `Model/Generate` | `cmd/cmd-generate.go`, `cmd/cfg-signet.go`, `signet.go` `AssignUUID` | C66, C67 |
| `Model/CmdFiles` | `cmd/cmd-{close,open,sign,checksum}.go`, `filesig/helpers.go` (writing) | C61–C64 |
| `Model/Memory` | `core.go` again, on a heap with slices | C49 |

`Props/*` has one file per group of properties; `MANIFEST.json` names the theorems of each property. Names ending in `_partial` prove a
part of the property as stated, names ending in `_refuted` (or describing the effect, for example `null_seal_panics`) prove that the
property as stated is false of the code, by a concrete reachable execution or for all executions.
`Lemmas/Toy` has a concrete, computable instance of the primitives (`toyPrims`) that is proved to satisfy the assumptions
(`toyPrims_correct`, `toyPrims_noPanic`), so that every assumption used below has a model, and the `*_example` theorems run the modelled
code on it inside the kernel.

## Trusted base
1. Lean 4.33.0's kernel (and the elaborator only as far as it has to present the statements correctly). Mathlib is used for lemmas and
   tactics only; no `native_decide`, no `bv_decide`, no axioms of our own.
2. Axioms: every theorem depends at most on `propext`, `Quot.sound` and `Classical.choice`, the three axioms of Lean's standard
   library. Of the theorems named in the manifest about 40 % use all three, 45 % `propext` and `Quot.sound`, the rest `propext` or
   nothing. (`#print axioms` on the names of the manifest shows this.) Concrete evaluations use `decide` or `decide +kernel`, which
   the kernel evaluates itself.
3. The model: that the definitions in `Model/` describe the Go code of `/repo`. Each definition cites the lines it models. Nothing was
   extracted automatically; the comparison is by reading. The following is assumed about what is not in `/repo`:
   - Go semantics: slices as byte sequences (with aliasing only in `Model/Memory`), 64 bit `int`/`uint`, map iteration in any order,
     mutexes exclude each other. Data races are modelled only in `Model/Support` (`SetCustomRNG`) and `Model/Shared` (loaded keys of signets), with sequentially consistent steps, and in
     `Model/Supply` (locked sections are atomic).
   - `safing/structures` (varint, container, dsd): varint and container are modelled in `Model/Container`; dsd (CBOR, MsgPack, JSON) is an
     abstract codec with the law "what was written is read back" where a theorem needs it. `Model/Formats` has the formats as encoding/json, fxamacker/cbor and
     vmihailenco/msgpack write the structures of the repository, and `formats_meet_assumptions` proves the law for them, for what survives. Which letters, signets and
     envelopes survive is proved in `Props/Formats` (C114): those with UTF-8 texts. Trusted there: the behaviour of these three libraries (encoding/json replaces what is
     not UTF-8 by U+FFFD, cbor refuses to read it, msgpack does not look at it); left out: negative levels, protection and signature of signets, and inputs which the
     writers never produce (floating point numbers, surrogate escapes, indefinite lengths).
   - base58 (`Decode("")` is an error), base64 (skips CR and LF, not strict), hex: modelled in `Model/Encoding`.
   - `bufio.Scanner` with its 64 KiB limit, `TrimSpace` on UTF-8, `regexp` (leftmost, lazy, non-overlapping), `filepath.Clean/Join/Walk`,
     `os.WriteFile` (truncate, then write), `os.Remove`: as described at the definitions.
   - gjson/sjson/pretty: `JsonLib.Sound` lists the laws. Whether sjson puts a new member first or last is left open (`newFirst`; the expected
     texts of `filesig/json_test.go` have it first). What sjson does with documents that are not objects is left open (`setOther`); the
     refutation in `json_refuted` uses the behaviour of sjson v1.2.5 (arrays are refused, scalars are replaced by an object).
   - Floating point in the password estimate is exact up to overflow to infinity.
   - Cryptographic primitives are functions; `Prims.Correct` (decryption inverts encryption, DH commutes, signatures verify, keys load as
     stored) is a hypothesis of the theorems that need it. Security theorems state what is assumed of the values that occur
     (for example `NoBreak`: the AEAD opens nothing that was not sealed with the same key, nonce and associated data; distinct derivation
     inputs give distinct keys). No theorem is about probability or complexity.

## What is not modelled
- The insides of the cryptographic primitives, timing, and clearing of memory (`Burn`) except where it has functional effects.
- The parsing of the command line, `cmd/cfg-tools.go` (unused code); what the commands print, except for `list`, `verify` and the lines of the dialogs.
- `Envelope`/`Signet` fields without effect on the modelled functions (creation dates, URLs).
- Symbolic links, case-insensitive file systems, device faults other than interrupted writes, concurrent processes on one directory.
- Fault injection into wire sessions while a letter is sent (exhausted randomness half-way), except where stated.

## Replaying real artifacts

The modules under `Verif/Vectors` prove no property. They test that the model is a model of *this* code: the abstract parts (hash functions, Ed25519,
CBOR, MsgPack, JSON) are instantiated with executable definitions, and the model is run on the data of the repository's own tests inside the kernel
(`decide +kernel`; no compiled code):

- `Vectors/Run`: `jess verify` of the model on `cmd/testdata` — the letter, the signature file and the whole directory tree — accepts the real files and
  prints the report and the tally; closing the envelope `file-sign` again with the stored key and the nonce of the file reproduces `test.txt.letter` and
  `test.txt.sig` *byte for byte* (`repo_letter_reproduced`, `repo_signature_reproduced`).
- `Vectors/HashTest`: all algorithms of `lhash/labeledhash_test.go`.
- `Vectors/FileSigTest`: the texts, armored signatures and JSON documents of `filesig/*_test.go`, including the expected output texts.
- `Vectors/Misc`: `password_test.go`, `requirements_test.go`, `letter_test.go`.

Replaying them found one error of an earlier version of the model: sjson adds a new member at the front of an object, where the model had it at
the end. No theorem depended on it; the position is a parameter now (`JsonLib.newFirst`).

## Findings
Each of these is a theorem (named in the manifest at the given property) about the modelled code.
- C05/C07 associated data is ambiguous from 17 key seals on; C06 `ApplyKeys` is not authenticated; C08 bytes can be moved between data and
  metadata of a signed letter; C48 key material is concatenated without lengths.
- C10/C50 an envelope with a key and a password secret can not be opened (the password is asked for with the wrong callback); signets without
  ID can not be opened; C52 letters closed with a lowered security level can not be opened.
- C16, C17, C51: custom suites only (signing tool counts as key source, hash functions of RSA not rated, empty key secrets accepted,
  failures of all but the last key exchange tool ignored).
- C22–C24, C54 wire sessions: never re-key; a rejected letter breaks the session; reflected letters are accepted; the letters of both
  directions after the handshake use the same key material; the client keeps key material of its early letters.
- C26 a letter with a null seal (JSON/CBOR) panics; a wire session that has neither sent nor accepted a letter panics on every letter without
  keys (a new client, or a server that rejected its first letter).
- C60 MAC tools (custom suites only): the MAC input is data directly followed by associated data, so bytes can move between them.
- C59 letters with shared keys, passwords or signatures can not be opened any more after `ToWire`/`LetterFromWire`.
- C27 a signet flagged public exports its private bytes; the directory store writes envelopes with inline secrets; C28/C57 key and password
  signets can not be read back; C29 truncated NIST private keys are accepted; C31 the in-memory store loses selections; C34 interrupted
  writes lose the old signet; C35 lost stock and overflow; C37 long passwords; C46 levels above 256; C45/C55 nil and racing RNG.
- C38, C40–C44: stale checksums, all-comment files, empty comment signs, dangling armor starts, shared-secret letters accepted as file
  signatures, standard input consumed by the first signature, encrypting suites accepted for signing, declined big letters count as verified,
  `x` not looked at after `x.sig`.
- C76 the global default key size raises the size of password keys, which is not part of the letter.
- C77 `export`, `backup` and `import` call the trust store without checking that there is one.
- C79 names of files are printed as they are, a line end in a name adds lines to the report.
- C61 the commands inherit C38, C42 and C52.
- C80 the session keeps the memory of the first letter's keys and reads it when it sends the first reply.
- C81 envelopes are shown with names, not IDs, of signets, and names are not escaped.
- C82 BLAKE2s-256 is registered with the `crypto.Hash` of BLAKE2b-256.
- C83 `Burn` leaves X25519 and Ed25519 keys as they are; an RSA recipient shares its public key with the signet.
- C07, C12 (like C05): from 17 key seals on the associated data is ambiguous; a modified letter with 19 key seals opens.
- C75 a signet whose public key is set and whose private key is not yet set is taken as loaded by a concurrent session.
- C74 an HTTP error page counts as "not compromised"; very long passwords are accepted by the prompt and refused by the session.
- C73 more than two signatures are not shown; metadata with line ends can imitate signer lines; signers without information crash the report; a declined letter is reported as OK in bulk mode.
- C72 signet names with line ends, signet names of 64 KiB and (keyring) envelopes with unknown suites crash the dialogs.
- C70 editing an envelope that carries inline keys strips the keys and saves an unusable envelope.
- C71 `configure " x"` checks for an envelope " x" but creates and saves "x", overwriting the existing one.
- C69 the dialogs find the chosen signet by the last word of its line: of a stored key pair the recipient is deleted although the private signet was chosen; IDs and envelope names with blanks select other entries; a name beginning with "Done" ends the dialog.
- C68 a failing key generation for the answer of a wire session leaves it unable to send for ever (`core-wire.go:277-281` stores the signet before the key exists); for the first letter to several recipients it leaves pairs behind that make the answer unacceptable.
- C67 `generate` is not atomic, `--textonly` fails for shared keys and passwords, `--symkeysize -1` panics.
- C65 one envelope whose suite is not registered makes `AllEnvelopes` fail; C38 a text of one line with CRLF gets LF line ends.
- C63, C64 commands truncate their output before writing: a failed write loses the old file (with `checksum add`, the user's file);
  `jess sign -o -` writes a file named `-`; `jess open -.letter` prints the decrypted data.
- C49 opening decrypts in place: a letter can be opened once; C56 the backup command is inverted.
