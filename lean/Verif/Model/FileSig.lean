import Verif.Model.Armor
import Verif.Model.LetterOps
import Verif.Model.LHash

/-! # Signing files: `filesig/main.go`, `filesig/helpers.go`

Maps are lists of pairs; a lookup takes the first pair with the key. Errors are as far distinguished as the rest of the model does. -/

namespace Jess

/-- filesig/main.go:20-23 the exported fields of `FileData`: what is signed. The time is in seconds. -/
structure SignedData where
  labeledHash : Bytes
  signedAt : Nat := 0
  metaData : List (Bytes × Bytes) := []
  deriving DecidableEq, Repr

/-- filesig/main.go:19-29 `FileData`. -/
structure FileData where
  signed : SignedData
  fileHash : Option LabeledHash := none
  signature : Option Letter := none
  verificationError : Option Err := none
  deriving DecidableEq, Repr

/-- `dsd.Dump`/`dsd.Load` of file data (MsgPack) and of letters (CBOR) are given. -/
structure FileCodec extends LetterCodec where
  dumpFile : SignedData → Res Bytes
  loadFile : Bytes → Res SignedData

/-- What was written can be read. -/
structure FileCodec.Sound (C : FileCodec) : Prop where
  letter : C.toLetterCodec.Sound
  file : ∀ x d, C.dumpFile x = .ok d → C.loadFile d = .ok x

/-- filesig/main.go:15-17 `fileSigRequirements`. -/
def fileSigReqs : Requirements := (Requirements.full.remove RecipientAuthentication).remove Confidentiality

/-- What all functions here share: cryptography, configuration, serialization, hash functions. -/
structure SigEnv where
  P : Prims
  cfg : Config
  C : FileCodec
  H : Hashes

/-- filesig/main.go:46-82 `SignFileData`. `now` is the current time. -/
def signFileData (E : SigEnv) (w : World) (rng : Rng) (now : Nat) (fileHash : LabeledHash) (metaData : List (Bytes × Bytes)) (e : Envelope) :
    Res (Letter × FileData) := do
  let s ← correspondence E.P E.cfg w suiteRegistry e
  let _ ← s.suite.provides.checkComplianceTo fileSigReqs
  let d ← E.C.dumpFile { labeledHash := fileHash.bytes, signedAt := now, metaData := metaData }
  let l ← (s.close E.P E.cfg rng s.initState d).2
  .ok (l, { signed := { labeledHash := fileHash.bytes, signedAt := now, metaData := metaData }, fileHash := some fileHash })

/-- filesig/main.go:104-114 the check of the required metadata. -/
def checkMeta (metaData : List (Bytes × Bytes)) : List (Bytes × Bytes) → Res Unit
  | [] => .ok ()
  | (k, v) :: req =>
    match metaData.lookup k with
    | none => .error .missing
    | some x => if x ≠ v then .error .malformed else checkMeta metaData req

/-- filesig/main.go:84-123 `VerifyFileData`. The file data is parsed from the letter's data before that is opened. -/
def verifyFileData (E : SigEnv) (w : World) (l : Letter) (required : List (Bytes × Bytes)) : Option FileData × Option Err :=
  match E.C.loadFile l.data with
  | .error e => (none, some e)
  | .ok x =>
    match l.open E.P E.cfg w suiteRegistry (some fileSigReqs) with
    | .error e => (some { signed := x, signature := some l, verificationError := some e }, some e)
    | .ok _ =>
      match checkMeta x.metaData required with
      | .error e => (some { signed := x, signature := some l, verificationError := some e }, some e)
      | .ok _ =>
        match lhashLoad x.labeledHash with
        | .error e => (some { signed := x, signature := some l, verificationError := some e }, some e)
        | .ok h => (some { signed := x, signature := some l, fileHash := some h }, none)

/-- The data file, or standard input: what is read the n-th time it is read. `none`: it can not be opened. -/
abbrev DataSource := Nat → Option ReadAll

/-- A file with fixed content. -/
def DataSource.file (content : Bytes) : DataSource := fun _ => some { chunks := [content] }

/-- Standard input: what has been read is gone. -/
def DataSource.stdin (content : Bytes) : DataSource := fun n => some { chunks := if n = 0 then [content] else [] }

/-- filesig/helpers.go:121-126, 38-43 hash the data (`DigestFromReader`, `DigestFile`). -/
def hashSource (H : Hashes) (alg : Nat) : Option ReadAll → Res LabeledHash
  | none => .error .env
  | some r => lhashReader H alg r

/-- filesig/helpers.go:108-143 one signature in the loop of `VerifyFile`: file data (if any), error, and whether the data was read. -/
def verifyOne (E : SigEnv) (w : World) (src : Option ReadAll) (required : List (Bytes × Bytes)) (l : Letter) :
    Option FileData × Option Err × Bool :=
  match verifyFileData E w l required with
  | (none, e) => (none, e, false)
  | (some fd, some e) => (some { fd with verificationError := some e }, some e, false)
  | (some fd, none) =>
    match fd.fileHash with
    | none => (none, some .panic, false)
    | some h =>
      match hashSource E.H h.alg src with
      | .error e => (some { fd with verificationError := some e }, some e, true)
      | .ok o =>
        if h.equal o then (some fd, none, true)
        else (some { fd with verificationError := some .integrity }, some .integrity, true)

/-- filesig/helpers.go:108-144 the loop of `VerifyFile`. `n` counts how often the data was read. -/
def verifyLoop (E : SigEnv) (w : World) (src : DataSource) (required : List (Bytes × Bytes)) :
    List Letter → Nat → List FileData → List FileData → Option Err → List FileData × Option Err
  | [], _, good, bad, last => (good ++ bad, last)
  | l :: ls, n, good, bad, last =>
    match verifyOne E w (src n) required l with
    | (some fd, none, _) => verifyLoop E w src required ls (n + 1) (good ++ [fd]) bad last
    | (some fd, some e, r) => verifyLoop E w src required ls (if r then n + 1 else n) good (bad ++ [fd]) (some e)
    | (none, e, r) => verifyLoop E w src required ls (if r then n + 1 else n) good bad e

/-- filesig/helpers.go:81-147 `VerifyFile`; `sigFile` is the content of the signature file, `none` if it can not be read. -/
def verifyFile (E : SigEnv) (w : World) (src : DataSource) (sigFile : Option Bytes) (required : List (Bytes × Bytes)) :
    List FileData × Option Err :=
  match sigFile with
  | none => ([], some .env)
  | some d =>
    match parseSigFile E.C.toLetterCodec d with
    | ([], some e) => ([], some e)
    | ([], none) => ([], some .missing)
    | (sigs, warn) => verifyLoop E w src required sigs 0 [] [] warn

/-- hashtools/sha.go:21-118, blake2.go:19-56, blake3.go:12-22: `labeledAlg` of the hash tools. -/
def labeledAlgs : List (Bytes × Nat) :=
  [(b!"SHA2-224", 8), (b!"SHA2-256", 9), (b!"SHA2-384", 10), (b!"SHA2-512", 11), (b!"SHA2-512-224", 12), (b!"SHA2-512-256", 13),
   (b!"SHA3-224", 16), (b!"SHA3-256", 17), (b!"SHA3-384", 18), (b!"SHA3-512", 19), (b!"BLAKE2s-256", 24), (b!"BLAKE2b-256", 25),
   (b!"BLAKE2b-384", 26), (b!"BLAKE2b-512", 27), (b!"BLAKE3", 32)]

/-- filesig/helpers.go:25-36 the hash algorithm of a suite: that of the first tool with a parenthesis; `none` if there is none, or if
it is unknown. -/
def suiteHash (suite : Suite) : Option Nat :=
  match suite.tools.find? (fun t => t.contains 40) with
  | none => none
  | some t =>
    match getHash (parseToolID t).2 with
    | none => none
    | some h => labeledAlgs.lookup h.name

/-- The signature file before signing: it does not exist, has a content, or can not be read. -/
inductive SigFileState
  | missing | content (d : Bytes) | unreadable

/-- filesig/helpers.go:15-80 `SignFile`, up to writing the file: the new content of the signature file and the file data. -/
def signFile (E : SigEnv) (w : World) (rng : Rng) (now : Nat) (src : Option ReadAll) (sigFile : SigFileState)
    (metaData : List (Bytes × Bytes)) (e : Envelope) : Res (Bytes × FileData) := do
  let (e, suite) ← loadSuite suiteRegistry e
  match suiteHash suite with
  | none => .error .unsupported
  | some alg => do
    let h ← hashSource E.H alg src
    let (l, fd) ← signFileData E w rng now h metaData e
    match sigFile with
    | .unreadable => .error .env
    | .missing => do
      let d ← makeSigSection E.C.toLetterCodec l
      .ok (d, fd)
    | .content old => do
      let d ← addToSigFile E.C.toLetterCodec l old true
      .ok (d, fd)

end Jess
