import Verif.Model.Letter
import Verif.Model.Encoding

/-! # Signature files: `filesig/format_armor.go`

The regular expressions are modelled by what they match (Go's regexp: leftmost match, lazy repetition, matches do not overlap). With
the flag `s`, `.` matches every byte or character. -/

namespace Jess

/-- filesig/format_armor.go:14-15 `sigFileArmorStart`, `sigFileArmorEnd`. -/
def armorStart : Bytes := b!"-----BEGIN JESS SIGNATURE-----"
def armorEnd : Bytes := b!"-----END JESS SIGNATURE-----"

/-- The text before and after the first occurrence of `pat`. -/
def cutAt (pat : Bytes) : Bytes → Option (Bytes × Bytes)
  | [] => none
  | a :: t =>
    if hasPrefix (a :: t) pat then some ([], (a :: t).drop pat.length)
    else
      match cutAt pat t with
      | none => none
      | some (p, r) => some (a :: p, r)

/-- filesig/format_armor.go:20 `START(.+?)END`: the text before the first match, the submatch and the text after the match. The
submatch has at least one character. (If there is no end after the first start, there is none after a later start.) -/
def nextSig (s : Bytes) : Option (Bytes × Bytes × Bytes) :=
  match cutAt armorStart s with
  | none => none
  | some (_, []) => none
  | some (pre, a :: t) =>
    match cutAt armorEnd t with
    | none => none
    | some (m, rest) => some (pre, a :: m, rest)

/-- filesig/format_armor.go:34 `FindAllSubmatch`. `fuel` bounds the number of matches. -/
def findSigs : Nat → Bytes → List Bytes
  | 0, _ => []
  | n + 1, s =>
    match nextSig s with
    | none => []
    | some (_, cap, rest) => cap :: findSigs n rest

/-- filesig/format_armor.go:21 `\r?\n?` at the end of the match. -/
def dropLineEnd : Bytes → Bytes
  | 13 :: 10 :: r => r
  | 13 :: r => r
  | 10 :: r => r
  | r => r

/-- filesig/format_armor.go:115 `ReplaceAll` with nothing. -/
def removeSigs : Nat → Bytes → Bytes
  | 0, s => s
  | n + 1, s =>
    match nextSig s with
    | none => s
    | some (pre, _, rest) => pre ++ removeSigs n (dropLineEnd rest)

/-- filesig/format_armor.go:22 `\s`: tab, line feed, form feed, carriage return, space. -/
def isReSpace (b : UInt8) : Bool := b == 9 || b == 10 || b == 12 || b == 13 || b == 32

/-- filesig/format_armor.go:40-46 the base64 data of a submatch. -/
def sigText (cap : Bytes) : Bytes := trimPrefix (trimSuffix (cap.filter (fun b => !isReSpace b)) armorEnd) armorStart

/-- letter.go:165-182 `ToDSD` (as CBOR), `LetterFromDSD`: the serialization is given (package dsd). -/
structure LetterCodec where
  dump : Letter → Res Bytes
  load : Bytes → Res Letter

/-- Letters are read as they were written. -/
def LetterCodec.Sound (C : LetterCodec) : Prop := ∀ l d, C.dump l = .ok d → C.load d = .ok l

/-- filesig/format_armor.go:53-70 parse one signature. -/
def parseSig (C : LetterCodec) (cap : Bytes) : Res Letter := do
  let d ← b64Decode false (sigText cap)
  C.load d

/-- filesig/format_armor.go:53-72 the loop: signatures, and the last error. -/
def parseSigs (C : LetterCodec) : List Bytes → List Letter → Option Err → List Letter × Option Err
  | [], sigs, w => (sigs, w)
  | c :: cs, sigs, w =>
    match parseSig C c with
    | .error e => parseSigs C cs sigs (some e)
    | .ok l => parseSigs C cs (sigs ++ [l]) w

/-- filesig/format_armor.go:29-75 `ParseSigFile`. -/
def parseSigFile (C : LetterCodec) (data : Bytes) : List Letter × Option Err := parseSigs C (findSigs data.length data) [] none

/-- filesig/format_armor.go:91-99 lines of 64 bytes. `fuel` bounds the number of lines. -/
def splitLines64 : Nat → Bytes → List Bytes
  | 0, _ => []
  | n + 1, d =>
    if d.length = 0 then []
    else if d.length > 64 then d.take 64 :: splitLines64 n (d.drop 64)
    else [d]

/-- Go standard library, `bytes.Join` with a line feed. -/
def joinLF : List Bytes → Bytes
  | [] => []
  | [x] => x
  | x :: xs => x ++ [10] ++ joinLF xs

/-- filesig/format_armor.go:78-105 `MakeSigFileSection`. -/
def makeSigSection (C : LetterCodec) (sig : Letter) : Res Bytes := do
  let d ← C.dump sig
  .ok (joinLF (armorStart :: (splitLines64 (b64Encode false d).length (b64Encode false d) ++ [armorEnd])))

/-- filesig/format_armor.go:108-124 `AddToSigFile`. -/
def addToSigFile (C : LetterCodec) (sig : Letter) (file : Bytes) (remove : Bool) : Res Bytes := do
  let sec ← makeSigSection C sig
  .ok ((if remove then removeSigs file.length file else file) ++ [10] ++ sec)

end Jess
