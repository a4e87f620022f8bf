import Verif.Model.FileSig
import Verif.Model.FileText

/-! # Checksums and signatures in JSON documents: `filesig/json.go`

The libraries gjson, sjson and pretty work on text. Here a document is the sequence of its tokens (`JDoc`), as far as the code looks at
them: the members of the object in the document (with the tokens of the keys), for each value whether it is a string or an array with
strings. White space between tokens is not part of it: every text that the code looks at has been formatted by pretty. -/

namespace Jess

/-- An element of an array: a string (its token), or something else (its tokens). -/
inductive JElem
  | str (raw : Bytes)
  | other (raw : Bytes)
  deriving DecidableEq, Repr

/-- A value: a string, an array, or something else. -/
inductive JVal
  | str (raw : Bytes)
  | arr (l : List JElem)
  | other (raw : Bytes)
  deriving DecidableEq, Repr

/-- A document: an object with its members, or something else. -/
inductive JDoc
  | obj (ms : List (Bytes × JVal))
  | other (raw : Bytes)
  deriving DecidableEq, Repr

/-- What the libraries do: `parse` (gjson.Valid, and the tokens), the meaning of a string token and the token of a string
(encoding/json), pretty, the sorting of object members (also in nested objects) that pretty does with `SortKeys`, and what
sjson.SetBytesOptions makes of a document that is not an object when a member is set. -/
structure JsonLib where
  parse : Bytes → Option JDoc
  pretty : JDoc → Bytes
  sortKeys : JDoc → JDoc
  unesc : Bytes → Bytes
  esc : Bytes → Bytes
  setOther : Bytes → Bytes → JVal → Res JDoc
  /-- whether sjson puts a new member before the others (filesig/json_test.go:20-26 expects so) or after them -/
  newFirst : Bool

/-- filesig/json.go:19-23. -/
def jsonChecksumKey : Bytes := b!"_jess-checksum"
def jsonSignatureKey : Bytes := b!"_jess-signature"

/-- gjson.GetBytes with a plain key: the first member with the key. -/
def jsonGet (J : JsonLib) (d : JDoc) (key : Bytes) : Option JVal :=
  match d with
  | .obj ms => (ms.find? (fun m => J.unesc m.1 == key)).map (·.2)
  | .other _ => none

/-- sjson.DeleteBytes with a plain key: the first member with the key. -/
def jsonDelete (J : JsonLib) (d : JDoc) (key : Bytes) : JDoc :=
  match d with
  | .obj ms => .obj (ms.eraseP (fun m => J.unesc m.1 == key))
  | .other r => .other r

/-- The first member with the key gets a new value. -/
def replaceFirst (J : JsonLib) (key : Bytes) (v : JVal) : List (Bytes × JVal) → List (Bytes × JVal)
  | [] => []
  | m :: ms => if J.unesc m.1 = key then (m.1, v) :: ms else m :: replaceFirst J key v ms

/-- sjson.SetBytesOptions with a plain key: the first member with the key, or a new member. What happens to documents that are not
objects is up to the library. -/
def jsonSet (J : JsonLib) (d : JDoc) (key : Bytes) (v : JVal) : Res JDoc :=
  match d with
  | .obj ms =>
    if ms.any (fun m => J.unesc m.1 == key) then .ok (.obj (replaceFirst J key v ms))
    else .ok (.obj (if J.newFirst then (J.esc key, v) :: ms else ms ++ [(J.esc key, v)]))
  | .other r => J.setOther r key v

/-- filesig/json.go:174-185, 195-206 the strings in a metadata member: other elements are skipped. -/
def metaStrings (J : JsonLib) : Option JVal → List Bytes
  | some (.str r) => [J.unesc r]
  | some (.arr l) => l.filterMap (fun e => match e with | .str r => some (J.unesc r) | .other _ => none)
  | _ => []

/-- filesig/json.go:171-191, 193-212 take one metadata member out of the document. -/
def takeMeta (J : JsonLib) (d : JDoc) (key : Bytes) : JDoc × List Bytes :=
  match jsonGet J d key with
  | none => (d, [])
  | some v => (jsonDelete J d key, metaStrings J (some v))

/-- filesig/json.go:158-223 `jsonSplit`: content, checksums, signatures. -/
def jsonSplit (J : JsonLib) (data : Bytes) : Res (Bytes × List Bytes × List Bytes) :=
  match J.parse data with
  | none => .error .malformed
  | some d =>
    let (d, checksums) := takeMeta J d jsonChecksumKey
    let (d, sigs) := takeMeta J d jsonSignatureKey
    .ok (J.pretty (J.sortKeys d), checksums, sigs)

/-- filesig/json.go:233-249, 254-270 set one metadata member: nothing, a string, or an array. -/
def setMeta (J : JsonLib) (d : JDoc) (key : Bytes) : List Bytes → Res JDoc
  | [] => .ok d
  | [x] => jsonSet J d key (.str (J.esc x))
  | xs => jsonSet J d key (.arr (xs.map (fun x => .str (J.esc x))))

/-- filesig/json.go:225-279 `jsonAddMeta`. -/
def jsonAddMeta (J : JsonLib) (data : Bytes) (checksums sigs : List Bytes) : Res Bytes :=
  match J.parse data with
  | none => .error .malformed
  | some d => do
    let d ← setMeta J d jsonChecksumKey checksums
    let d ← setMeta J d jsonSignatureKey sigs
    .ok (J.pretty d)

/-- `slices.Sort`, `slices.Compact`. -/
def dedup (l : List Bytes) : List Bytes := compact (sortStrings l)

/-- filesig/json.go:26-45 `AddJSONChecksum`. -/
def addJSONChecksum (J : JsonLib) (H : Hashes) (data : Bytes) : Res Bytes := do
  let (content, checksums, sigs) ← jsonSplit J data
  let h ← lhashDigest H 25 content
  jsonAddMeta J content (dedup (checksums ++ [h.base58])) (dedup sigs)

/-- filesig/json.go:57-67 check one checksum. -/
def checkJSONSum (H : Hashes) (content s : Bytes) : Res Unit := do
  let h ← lhashFromBase58 s
  let m ← h.matches H content
  if m then .ok () else .error .integrity

/-- filesig/json.go:57-68, 128-148 check all, stop at the first error. -/
def checkEach (f : Bytes → Res Unit) : List Bytes → Res Unit
  | [] => .ok ()
  | x :: xs => do
    f x
    checkEach f xs

/-- filesig/json.go:48-76 `VerifyJSONChecksum`. -/
def verifyJSONChecksum (J : JsonLib) (H : Hashes) (data : Bytes) : Res Unit := do
  let (content, checksums, _) ← jsonSplit J data
  checkEach (checkJSONSum H content) checksums
  if checksums.length = 0 then .error .missing else .ok ()

/-- filesig/json.go:78-118 `AddJSONSignature`. The metadata is set in the original document. -/
def addJSONSignature (J : JsonLib) (E : SigEnv) (w : World) (rng : Rng) (data : Bytes) (e : Envelope) : Res Bytes := do
  let s ← correspondence E.P E.cfg w suiteRegistry e
  let _ ← s.suite.provides.checkComplianceTo fileSigReqs
  let (content, checksums, sigs) ← jsonSplit J data
  let l ← (s.close E.P E.cfg rng s.initState content).2
  let d ← E.C.dump { l with data := [] }
  jsonAddMeta J data (dedup checksums) (dedup (sigs ++ [b64Encode true d]))

/-- filesig/json.go:129-145 check one signature. -/
def checkJSONSig (E : SigEnv) (w : World) (content s : Bytes) : Res Unit := do
  let d ← b64Decode true s
  let l ← E.C.load d
  ({ l with data := content } : Letter).verify E.P E.cfg w suiteRegistry (some fileSigReqs)

/-- filesig/json.go:120-156 `VerifyJSONSignature`. -/
def verifyJSONSignature (J : JsonLib) (E : SigEnv) (w : World) (data : Bytes) : Res Unit := do
  let (content, _, sigs) ← jsonSplit J data
  checkEach (checkJSONSig E w content) sigs
  if sigs.length = 0 then .error .missing else .ok ()

end Jess
