import Verif.Model.Container

/-!
# Letters: `letter.go`, `letter-wire.go`, `letter-file.go`
-/

namespace Jess

/-- letter.go:34-45 `Seal`. -/
structure Seal where
  scheme : Bytes := []
  id : Bytes := []
  value : Bytes := []
  deriving DecidableEq, Repr

/-- letter.go:18-31 `Letter`. `Version` is a Go `uint8`. Slices of pointers to seals are lists of seals
(nil entries are not modelled: no code path of the library creates them, a decoder could only do so for a
JSON `null` seal). -/
structure Letter where
  version : UInt8 := 0
  suiteID : Bytes := []
  nonce : Bytes := []
  keys : List Seal := []
  data : Bytes := []
  mac : Bytes := []
  signatures : List Seal := []
  applyKeys : Bool := false
  deriving DecidableEq, Repr

/-! ## Associated data, letter.go:183-263 -/

/-- letter.go:189 -/ def fieldIDLetterVersion : Nat := 1
/-- letter.go:190 -/ def fieldIDLetterSuiteID : Nat := 2
/-- letter.go:191 -/ def fieldIDLetterNonce : Nat := 3
/-- letter.go:192 -/ def fieldIDLetterKeys : Nat := 4
/-- letter.go:193 -/ def fieldIDLetterMac : Nat := 5
/-- letter.go:195 -/ def fieldIDSealScheme : Nat := 16
/-- letter.go:196 -/ def fieldIDSealID : Nat := 17
/-- letter.go:197 -/ def fieldIDSealValue : Nat := 18

/-- letter.go:250-263 `Seal.compileAssociatedData` (the bytes it appends to the container). -/
def Seal.compileAD (s : Seal) : Bytes :=
  (if nonempty s.scheme then pack64 fieldIDSealScheme ++ block s.scheme else []) ++
  (if nonempty s.id then pack64 fieldIDSealID ++ block s.id else []) ++
  (if nonempty s.value then pack64 fieldIDSealValue ++ block s.value else [])

/-- letter.go:223-226, the loop over the key seals, starting at index `i`. -/
def compileADKeys (i : Nat) : List Seal → Bytes
  | [] => []
  | s :: ss => pack64 i ++ s.compileAD ++ compileADKeys (i + 1) ss

/-- letter.go:201-230 `Letter.compileAssociatedData`. -/
def Letter.compileAD (l : Letter) : Bytes :=
  (if l.version > 0 then pack64 fieldIDLetterVersion ++ pack64 l.version.toNat else []) ++
  (if nonempty l.suiteID then pack64 fieldIDLetterSuiteID ++ block l.suiteID else []) ++
  (if nonempty l.nonce then pack64 fieldIDLetterNonce ++ block l.nonce else []) ++
  (if l.keys.length > 0 then
    pack64 fieldIDLetterKeys ++ pack64 l.keys.length ++ compileADKeys 0 l.keys else [])

/-- letter.go:232-248 `Letter.compileAssociatedSigningData`. -/
def Letter.compileSigningData (l : Letter) (ad : Bytes) : Bytes :=
  let ad := if ad.length = 0 then l.compileAD else ad
  if l.mac.length = 0 then ad
  else ad ++ pack64 fieldIDLetterMac ++ block l.mac

/-! ## Wire format, letter-wire.go -/

/-- letter-wire.go:42-51 the flags. -/
def Letter.wireFlags (l : Letter) : Nat :=
  (if l.version > 0 then 1 else 0) ||| (if l.keys.length > 0 then 2 else 0) ||| (if l.applyKeys then 4 else 0)

/-- letter-wire.go:68-71, the loop over the seals. -/
def wireSeals : List Seal → Bytes
  | [] => []
  | s :: ss => block s.id ++ block s.value ++ wireSeals ss

/-- letter-wire.go:32-85 `Letter.ToWire` (never fails). -/
def Letter.toWire (l : Letter) : Bytes :=
  pack64 1 ++ pack64 l.wireFlags ++
  (if l.version > 0 then pack64 l.version.toNat ++ block l.suiteID else []) ++
  (if l.keys.length > 0 then pack64 l.keys.length ++ wireSeals l.keys else []) ++
  block l.nonce ++ block l.data ++ block l.mac

/-- letter-wire.go:153-166, reading `n` seals. -/
def readSeals : Nat → Bytes → Res (List Seal × Bytes)
  | 0, c => .ok ([], c)
  | n + 1, c => do
    let (id, c) ← getBlock c
    let (value, c) ← getBlock c
    let (rest, c) ← readSeals n c
    .ok ({ id := id, value := value } :: rest, c)

/-- letter-wire.go:124-137: version and suite ID, present in setup messages only. -/
def readWireSetup (setupMsg : Bool) (c : Bytes) : Res ((UInt8 × Bytes) × Bytes) :=
  match setupMsg with
  | false => .ok ((0, []), c)
  | true => do
    let (n, c) ← getN8 c
    let (suiteID, c) ← getBlock c
    .ok ((UInt8.ofNat n, suiteID), c)

/-- letter-wire.go:142-167: the key seals, present only if the flag says so. -/
def readWireKeys (sendingKeys : Bool) (c : Bytes) : Res (List Seal × Bytes) :=
  match sendingKeys with
  | false => .ok ([], c)
  | true => do
    let (n, c) ← getN8 c
    readSeals n c

/-- letter-wire.go:95-189 `LetterFromWire`; returns the letter and the unread rest of the container. -/
def letterFromWire (c : Bytes) : Res (Letter × Bytes) := do
  let (wireFormatVersion, c) ← getN8 c
  if wireFormatVersion ≠ 1 then
    .error .version
  else
    let (flags, c) ← getN64 c
    let ((version, suiteID), c) ← readWireSetup (decide (flags &&& 1 > 0)) c
    let (keys, c) ← readWireKeys (decide (flags &&& 2 > 0)) c
    let (nonce, c) ← getBlock c
    let (data, c) ← getBlock c
    let (mac, c) ← getBlock c
    .ok ({ version := version, suiteID := suiteID, nonce := nonce, keys := keys, data := data, mac := mac,
           applyKeys := decide (flags &&& 4 > 0) }, c)

/-! ## File format, letter-file.go -/

/-- The header serializer: `dsd.DumpIndent(letter, dsd.JSON, "\t")` and `dsd.Load` (dependency, abstract).
`load` is applied to the dumped bytes followed by a newline. -/
structure HeaderCodec where
  dump : Letter → Res Bytes
  load : Bytes → Res Letter

/-- letter-file.go:23-49 `Letter.ToFileFormat`. Returns the container and the letter after the call (the code
temporarily sets `Data` to nil and puts it back; on a serializer error it returns early and leaves `Data` nil). -/
def Letter.toFileFormat (hc : HeaderCodec) (l : Letter) : Res Bytes × Letter :=
  match hc.dump { l with data := [] } with
  | .error e => (.error e, { l with data := [] })
  | .ok headerData => (.ok (pack64 1 ++ block (headerData ++ [10]) ++ block l.data), l)

/-- letter-file.go:52-82 `LetterFromFileFormat`. -/
def letterFromFileFormat (hc : HeaderCodec) (c : Bytes) : Res (Letter × Bytes) := do
  let (fileFormatVersion, c) ← getN8 c
  if fileFormatVersion ≠ 1 then
    .error .version
  else
    let (data, c) ← getBlock c
    let letter ← hc.load data
    let (letterData, c) ← getBlock c
    .ok ({ letter with data := letterData }, c)

end Jess
