import Verif.Model.Session
import Verif.Model.KeyCodec

/-!
# Serialization of signets and envelopes, text format (`signet.go`, `envelope.go`, `import_export.go`), and the commands that use it
(`cmd/cmd-import-export.go`)
-/

namespace Jess

/-- What is serialized of a signet: the exported fields (signet.go:24-36). -/
def Signet.stored (s : Signet) : Signet := { s with loadedPub := none, loadedPriv := none }

/-- What is serialized of an envelope: the exported fields, envelope.go:13-41. -/
def Envelope.stored (e : Envelope) : Envelope :=
  { e with suite := none, opening := false, secrets := e.secrets.map Signet.stored, senders := e.senders.map Signet.stored,
           recipients := e.recipients.map Signet.stored }

/-- The serialization library: `dsd.DumpIndent` with JSON for the files of a trust store (truststores/io.go:24, 69), `dsd.Dump` with CBOR for texts and
keyrings (signet.go:271, envelope.go:309), and `dsd.Load`, which tells the formats apart (truststores/io.go:49, 95, signet.go:284, envelope.go:322).
The functions of the library are in `Model/Formats`; toy libraries use one format for both. -/
structure Dsd where
  dumpSignet : Signet → Res Bytes
  loadSignet : Bytes → Res Signet
  dumpEnvelope : Envelope → Res Bytes
  loadEnvelope : Bytes → Res Envelope
  textSignet : Signet → Res Bytes := dumpSignet
  textEnvelope : Envelope → Res Bytes := dumpEnvelope

/-- signet.go:264-277 `Signet.ToBytes`: the signet (with the stored key) and the data. -/
def Signet.toBytes (P : Prims) (D : Dsd) (s : Signet) : Res (Signet × Bytes) := do
  let s ← s.store P
  let b ← D.textSignet s.stored
  .ok (s, b)

/-- signet.go:280-294 `SignetFromBytes`. -/
def signetFromBytes (P : Prims) (D : Dsd) (data : Bytes) : Res Signet := do
  let s ← D.loadSignet data
  s.load P

/-- signet.go:297-306 `Signet.ToBase58`. -/
def Signet.toBase58 (P : Prims) (D : Dsd) (s : Signet) : Res (Signet × Bytes) := do
  let (s, b) ← s.toBytes P D
  .ok (s, b58Encode b)

/-- signet.go:309-318 `SignetFromBase58`. -/
def signetFromBase58 (P : Prims) (D : Dsd) (text : Bytes) : Res Signet := do
  let b ← b58Decode text
  signetFromBytes P D b

/-- import_export.go:10-24 the keywords. -/
inductive TextKind where
  | sender | recipient | secret | envelope
  deriving DecidableEq, Repr

def TextKind.keyword : TextKind → Bytes
  | .sender => b!"sender"
  | .recipient => b!"recipient"
  | .secret => b!"secret"
  | .envelope => b!"envelope"

/-- import_export.go:186 `[A-Za-z0-9]`. -/
def isAlnum (c : UInt8) : Bool := (65 ≤ c && c ≤ 90) || (97 ≤ c && c ≤ 122) || (48 ≤ c && c ≤ 57)

/-- `ReplaceAllString` with `[^A-Za-z0-9]+` and "-": each maximal run of other characters becomes a dash. (Runs of other characters are
runs of other bytes.) The flag tells whether the last character belongs to a run. -/
def dashed : Bool → Bytes → Bytes
  | _, [] => []
  | inRun, c :: cs => if isAlnum c then c :: dashed false cs else if inRun then dashed true cs else 45 :: dashed true cs

/-- `strings.ToLower` of ASCII. -/
def asciiLower (s : Bytes) : Bytes := s.map (fun c => if 65 ≤ c && c ≤ 90 then c + 32 else c)

/-- `strings.Trim(s, "-")`. -/
def trimDash (s : Bytes) : Bytes := ((s.dropWhile (· == 45)).reverse.dropWhile (· == 45)).reverse

/-- import_export.go:189-195 `toTextFormatString`. -/
def textName (s : Bytes) : Bytes := asciiLower (trimDash (dashed false s))

/-- import_export.go:57-79: keyword and type comment. -/
def textHead (s : Signet) : Res (TextKind × Bytes) :=
  if s.scheme = schemePassword then .error .unsupported
  else if s.scheme = schemeKey then
    if s.isPublic then .error .unsupported else .ok (.secret, b!"symmetric-key")
  else if s.isPublic then .ok (.recipient, b!"public-" ++ textName s.scheme ++ b!"-key")
  else .ok (.sender, b!"private-" ++ textName s.scheme ++ b!"-key")

/-- import_export.go:50-96 `toTextFormat`: the long format accesses the info, which may be nil. -/
def Signet.toTextFormat (P : Prims) (D : Dsd) (short : Bool) (s : Signet) : Res Bytes := do
  let (s, data) ← s.toBase58 P D
  let (kind, comment) ← textHead s
  if short then .ok (kind.keyword ++ [58] ++ data)
  else
    match s.info with
    | none => .error .panic
    | some i => .ok (kind.keyword ++ [58] ++ comment ++ [58] ++ textName i.name ++ [58] ++ data)

/-- import_export.go:26-37 `Signet.Export`. -/
def Signet.export (P : Prims) (D : Dsd) (short : Bool) (s : Signet) : Res Bytes :=
  if s.isPublic then s.toTextFormat P D short
  else do
    let r ← s.asRecipient P
    r.toTextFormat P D short

/-- import_export.go:40-48 `Signet.Backup`. -/
def Signet.backup (P : Prims) (D : Dsd) (short : Bool) (s : Signet) : Res Bytes :=
  if s.isPublic then .error .unsupported else s.toTextFormat P D short

/-- The last section of a text that is split at colons. -/
def lastSection (text : Bytes) : Bytes := (text.reverse.takeWhile (· ≠ 58)).reverse

/-- import_export.go:127-169 `KeyFromTextFormat`, `SenderFromTextFormat`, `RecipientFromTextFormat` (a text with the prefix has two
sections at least). -/
def signetFromText (P : Prims) (D : Dsd) (kind : TextKind) (text : Bytes) : Res Signet :=
  if hasPrefix text (kind.keyword ++ [58]) then signetFromBase58 P D (lastSection text) else .error .malformed

/-- envelope.go:279-301 `CleanSignets`: what remains of a signet. -/
def Signet.clean (s : Signet) : Signet := { version := s.version, id := s.id, scheme := s.scheme }

/-- envelope.go:279-301 `CleanSignets`. -/
def Envelope.clean (e : Envelope) : Envelope :=
  { e with secrets := e.secrets.map Signet.clean, senders := e.senders.map Signet.clean, recipients := e.recipients.map Signet.clean }

/-- envelope.go:304-315 `Envelope.ToBytes`: the envelope (which is modified) and the data. -/
def Envelope.toBytes (D : Dsd) (e : Envelope) : Envelope × Res Bytes := (e.clean, D.textEnvelope e.clean.stored)

/-- import_export.go:99-124 `Envelope.Export`: the envelope (which is modified) and the text. -/
def Envelope.export (D : Dsd) (short : Bool) (e : Envelope) : Envelope × Res Bytes :=
  (e.clean, do
    let b ← (e.clean.toBytes D).2
    if short then .ok (TextKind.envelope.keyword ++ [58] ++ b58Encode b)
    else .ok (TextKind.envelope.keyword ++ [58] ++ e.suiteID ++ [58] ++ e.name ++ [58] ++ b58Encode b))

/-- import_export.go:172-184 `EnvelopeFromTextFormat`, envelope.go:318-351. -/
def envelopeFromText (D : Dsd) (text : Bytes) : Res Envelope :=
  if hasPrefix text (TextKind.envelope.keyword ++ [58]) then do
    let b ← b58Decode (lastSection text)
    D.loadEnvelope b
  else .error .malformed

/-! ## Commands -/

/-- What the commands need of a trust store. -/
structure TextStore where
  getSignet : (id : Bytes) → (recipient : Bool) → Res Signet
  getEnvelope : (name : Bytes) → Res Envelope

/-- cmd/cmd-import-export.go:45-90 `handleExport`: the printed line. -/
def cmdExport (P : Prims) (D : Dsd) (ts : TextStore) (id : Bytes) : Res Bytes :=
  match ts.getSignet id true with
  | .ok r => r.export P D false
  | .error _ =>
    match ts.getSignet id false with
    | .ok s => do
      let r ← s.asRecipient P
      r.export P D false
    | .error _ =>
      match ts.getEnvelope id with
      | .ok e => (e.export D false).2
      | .error _ => .error .notFound

/-- cmd/cmd-import-export.go:92-111 `handleBackup`. The condition is `err != nil`, so that the backup is only attempted if there is no
signet (a nil pointer, which panics). -/
def cmdBackup (ts : TextStore) (id : Bytes) : Res Bytes :=
  match ts.getSignet id false with
  | .error _ => .error .panic
  | .ok _ => .error .notFound

/-- What an import puts into the trust store. -/
inductive Imported where
  | signet (s : Signet)
  | envelope (e : Envelope)
  deriving DecidableEq, Repr

/-- cmd/cmd-import-export.go:113-170 `handleImport`, up to storing the result. -/
def cmdImport (P : Prims) (D : Dsd) (text : Bytes) : Res Imported :=
  if hasPrefix text (TextKind.envelope.keyword ++ [58]) then (envelopeFromText D text).map .envelope
  else if hasPrefix text (TextKind.sender.keyword ++ [58]) then (signetFromText P D .sender text).map .signet
  else if hasPrefix text (TextKind.recipient.keyword ++ [58]) then (signetFromText P D .recipient text).map .signet
  else if hasPrefix text (TextKind.secret.keyword ++ [58]) then (signetFromText P D .secret text).map .signet
  else .error .malformed

end Jess
