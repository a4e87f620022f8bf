import Verif.Model.LHash

/-! # Checksums in text files: `filesig/text.go`, `filesig/text_yaml.go`

Texts are byte strings. Of the Go standard library this models `bufio.Scanner` with its default buffer (as far as its result
depends on the input), `strings/bytes.TrimSpace`, `TrimPrefix`, `HasPrefix`, `strings.Trim` with an ASCII cutset, and
`slices.Sort`/`slices.Compact` (golang.org/x/exp) on strings. -/

namespace Jess

/-- The UTF-8 encodings of the code points for which `unicode.IsSpace` holds. -/
def spaceCodes : List Bytes :=
  [[9], [10], [11], [12], [13], [32], [0xC2, 0x85], [0xC2, 0xA0], [0xE1, 0x9A, 0x80],
   [0xE2, 0x80, 0x80], [0xE2, 0x80, 0x81], [0xE2, 0x80, 0x82], [0xE2, 0x80, 0x83], [0xE2, 0x80, 0x84], [0xE2, 0x80, 0x85],
   [0xE2, 0x80, 0x86], [0xE2, 0x80, 0x87], [0xE2, 0x80, 0x88], [0xE2, 0x80, 0x89], [0xE2, 0x80, 0x8A],
   [0xE2, 0x80, 0xA8], [0xE2, 0x80, 0xA9], [0xE2, 0x80, 0xAF], [0xE2, 0x81, 0x9F], [0xE3, 0x80, 0x80]]

/-- Go standard library, part of `bytes.TrimLeftFunc`: remove leading code words. `fuel` bounds the number of words. -/
def stripCodes (codes : List Bytes) : Nat → Bytes → Bytes
  | 0, s => s
  | n + 1, s =>
    match codes.find? (fun c => hasPrefix s c) with
    | none => s
    | some c => stripCodes codes n (s.drop c.length)

/-- Go standard library, `strings.TrimLeftFunc(s, unicode.IsSpace)`. -/
def trimLeft (s : Bytes) : Bytes := stripCodes spaceCodes s.length s

/-- Go standard library, `strings.TrimRightFunc(s, unicode.IsSpace)`: a space code point is decoded at the end exactly when the
string ends with its encoding. -/
def trimRight (s : Bytes) : Bytes := (stripCodes (spaceCodes.map List.reverse) s.length s.reverse).reverse

/-- Go standard library, `bytes.TrimSpace` and `strings.TrimSpace`. -/
def trimSpace (s : Bytes) : Bytes := trimRight (trimLeft s)

/-- Go standard library, `strings.Trim` with a cutset of ASCII characters. -/
def trimSet (cut s : Bytes) : Bytes := ((s.dropWhile (cut.contains ·)).reverse.dropWhile (cut.contains ·)).reverse

/-- filesig/text.go:217-232 `scanRawLines`, applied to the whole input: the lines, each with its line feed. -/
def rawLines : Bytes → List Bytes
  | [] => []
  | a :: t =>
    if a = 10 then [10] :: rawLines t
    else
      match rawLines t with
      | [] => [[a]]
      | l :: ls => (a :: l) :: ls

/-- Go standard library, `bufio.Scanner`: `MaxScanTokenSize` is 65536; a line is too long if the buffer is full before its end
is seen (line feed, or end of file for the last line). -/
def scanLine (l : Bytes) : Bool := if l.getLast? = some 10 then decide (l.length ≤ 65536) else decide (l.length < 65536)

/-- Go standard library, `bufio.Scanner` over a byte slice with `scanRawLines`: the lines, or `ErrTooLong`. -/
def scanLines (data : Bytes) : Res (List Bytes) :=
  if (rawLines data).all scanLine then .ok (rawLines data) else .error .env

/-- filesig/text.go:17-21 `TextKeyPrefix`, `TextChecksumKey`. -/
def textKeyPrefix : Bytes := b!"jess-"
def textChecksumKey : Bytes := b!"jess-checksum"

/-- filesig/text.go:106 `metaLinePrefix`. -/
def metaPrefix (sign : Bytes) : Bytes := sign ++ b!" jess-"

/-- filesig/text.go:115 the stored form of a metadata line. -/
def metaLine (sign l : Bytes) : Bytes := trimSpace (trimPrefix l sign)

/-- filesig/text.go:105-125 `textSplit`: the content and the metadata lines. -/
def textSplit (data sign : Bytes) : Res (Bytes × List Bytes) :=
  match scanLines data with
  | .error e => .error e
  | .ok ls =>
    .ok (trimSpace (ls.filter (fun l => !hasPrefix l (metaPrefix sign))).flatten,
         (ls.filter (fun l => hasPrefix l (metaPrefix sign))).map (metaLine sign))

/-- filesig/text.go:127-143 `detectLineEndFormat`: the first line feed decides; a carriage return has to be before it. -/
def lineEndOf (data : Bytes) : Bytes :=
  match rawLines data with
  | l :: _ => if hasSuffix l [13, 10] then [13, 10] else [10]
  | [] => [10]

/-- filesig/text.go:201-208 `textWriteMetaLines`: what is written. -/
def metaText (metas : List Bytes) (sign le : Bytes) : Bytes := metas.flatMap (fun m => sign ++ b!" " ++ m ++ le)

/-- filesig/text.go:35-46 `TextPlacement`: a string; any string is possible. -/
inductive Placement
  | top | bottom | afterComment | default | other
  deriving DecidableEq, Repr

/-- filesig/text.go:169-190 the loop over the lines: metadata is written before the first line that does not start with the
comment sign. Result: the text, and whether metadata was written. -/
def afterComment (sign metaTxt : Bytes) : List Bytes → Bytes × Bool
  | [] => ([], false)
  | l :: ls =>
    if hasPrefix l sign then
      let r := afterComment sign metaTxt ls
      (l ++ r.1, r.2)
    else (metaTxt ++ l ++ ls.flatten, true)

/-- filesig/text.go:145-199 `textAddMeta`. A placement that is not known leaves the buffer empty. -/
def textAddMeta (data : Bytes) (metas : List Bytes) (sign : Bytes) : Placement → Res Bytes
  | .top => .ok (metaText metas sign (lineEndOf data) ++ data ++ lineEndOf data)
  | .bottom => .ok (data ++ lineEndOf data ++ lineEndOf data ++ metaText metas sign (lineEndOf data))
  | .other => .ok []
  | _ =>
    match scanLines data with
    | .error e => .error e
    | .ok ls =>
      .ok ((afterComment sign (metaText metas sign (lineEndOf data)) ls).1 ++
        (if (afterComment sign (metaText metas sign (lineEndOf data)) ls).2 then [] else metaText metas sign (lineEndOf data)) ++
        lineEndOf data)

/-- Go: `a <= b` on strings. -/
def strLe : Bytes → Bytes → Bool
  | [], _ => true
  | _ :: _, [] => false
  | a :: s, b :: t => if a = b then strLe s t else decide (a < b)

/-- Insert in sorted position. -/
def sortInsert (x : Bytes) : List Bytes → List Bytes
  | [] => [x]
  | y :: ys => if strLe x y then x :: y :: ys else y :: sortInsert x ys

/-- golang.org/x/exp `slices.Sort` on strings. (Equal strings are the same, so there is just one sorted result.) -/
def sortStrings : List Bytes → List Bytes
  | [] => []
  | x :: xs => sortInsert x (sortStrings xs)

/-- golang.org/x/exp `slices.Compact`. -/
def compact : List Bytes → List Bytes
  | [] => []
  | [x] => [x]
  | x :: y :: r => if x = y then compact (y :: r) else x :: compact (y :: r)

/-- filesig/text.go:56-57 the new metadata line. BLAKE2b_256 is algorithm 25. -/
def checksumLine (h : LabeledHash) : Bytes := textChecksumKey ++ b!": " ++ h.base58

/-- filesig/text.go:48-66 `AddTextFileChecksum`. -/
def addTextChecksum (H : Hashes) (data sign : Bytes) (p : Placement) : Res Bytes := do
  let (content, metas) ← textSplit data sign
  let h ← lhashDigest H 25 content
  textAddMeta content (compact (sortStrings (metas ++ [checksumLine h]))) sign p

/-- filesig/text.go:79-85 the value of a checksum line. -/
def checksumValue (m : Bytes) : Bytes := trimSet b!":= " (trimSpace (trimPrefix m textChecksumKey))

/-- filesig/text.go:84-92 check one checksum line. -/
def checkLine (H : Hashes) (content m : Bytes) : Res Unit := do
  let h ← lhashFromBase58 (checksumValue m)
  let ok ← h.matches H content
  if ok then .ok () else .error .integrity

/-- filesig/text.go:76-95 the loop over the metadata lines: the number of verified checksums. -/
def checkLines (H : Hashes) (content : Bytes) : List Bytes → Nat → Res Nat
  | [], n => .ok n
  | m :: ms, n =>
    if hasPrefix m textChecksumKey then do
      let _ ← checkLine H content m
      checkLines H content ms (n + 1)
    else checkLines H content ms n

/-- filesig/text.go:69-103 `VerifyTextFileChecksum`. -/
def verifyTextChecksum (H : Hashes) (data sign : Bytes) : Res Unit := do
  let (content, metas) ← textSplit data sign
  let n ← checkLines H content metas 0
  if n = 0 then .error .missing else .ok ()

/-- filesig/text_yaml.go:4-6 `AddYAMLChecksum`. -/
def addYAMLChecksum (H : Hashes) (data : Bytes) (p : Placement) : Res Bytes := addTextChecksum H data b!"#" p

/-- filesig/text_yaml.go:9-11 `VerifyYAMLChecksum`. -/
def verifyYAMLChecksum (H : Hashes) (data : Bytes) : Res Unit := verifyTextChecksum H data b!"#"

end Jess
