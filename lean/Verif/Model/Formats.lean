import Verif.Model.FileSig
import Verif.Model.TextFormat
import Verif.Model.Stores

/-!
# The serialization formats

`dsd` (github.com/safing/structures) writes letters as CBOR (filesig/format_armor.go:78, filesig/json.go:104), signed file data as MsgPack
(filesig/main.go:68), letter headers (letter-file.go:33) and the files of a trust store (truststores/io.go:24, 69) as JSON, signets and envelopes in texts
as CBOR (signet.go:271, envelope.go:309), each after one byte for the format. The rest of the model leaves these serializers open (`LetterCodec`, `FileCodec`,
`HeaderCodec`, `Dsd`); here they are, as encoding/json, fxamacker/cbor and vmihailenco/msgpack write the structures of the repository.

encoding/json replaces what is not UTF-8, cbor writes it but does not read it, msgpack does not care. The serializers that are called `real` below refuse what
does not survive; those called `go` write it as well, and `Props/Formats` tells what becomes of it.

What is left out: negative security levels; signets with protection or signature (nothing sets them). The reader does not know what the
writer never produces (floating point numbers, escapes for surrogates, indefinite lengths).
-/

namespace Jess.Formats

/-- A value of CBOR, MsgPack or JSON. -/
inductive Val where
  | null
  | bool (b : Bool)
  | num (n : Nat)
  | str (s : Bytes)
  | bin (b : Bytes)
  | time (n : Nat)
  | arr (l : List Val)
  | obj (l : List (Bytes × Val))

/-- Read `n` values. -/
def readItems (p : Bytes → Option (Val × Bytes)) : Nat → Bytes → Option (List Val × Bytes)
  | 0, b => some ([], b)
  | n + 1, b =>
    match p b with
    | none => none
    | some (v, r) =>
      match readItems p n r with
      | none => none
      | some (vs, r) => some (v :: vs, r)

/-- Read `n` pairs. -/
def readPairs (p : Bytes → Option (Val × Bytes)) : Nat → Bytes → Option (List (Bytes × Val) × Bytes)
  | 0, b => some ([], b)
  | n + 1, b =>
    match p b with
    | some (.str k, r) =>
      match p r with
      | none => none
      | some (v, r) =>
        match readPairs p n r with
        | none => none
        | some (vs, r) => some ((k, v) :: vs, r)
    | _ => none

def takeN (n : Nat) (b : Bytes) : Option (Bytes × Bytes) := if b.length < n then none else some (b.take n, b.drop n)

/-- Big endian numbers. -/
def be (b : Bytes) : Nat := b.foldl (fun a x => a * 256 + x.toNat) 0

def beBytes : Nat → Nat → Bytes
  | 0, _ => []
  | n + 1, x => UInt8.ofNat (x / 256 ^ n % 256) :: beBytes n x

/-- A number of `k` bytes. -/
def takeBe (k : Nat) (b : Bytes) : Option (Nat × Bytes) := (takeN k b).map fun (x, r) => (be x, r)

/-! ## UTF-8 -/

/-- A continuation byte of UTF-8. -/
def contByte (b : UInt8) : Bool := 0x80 ≤ b && b ≤ 0xbf

/-- The first two bytes of a character of three bytes. -/
def utf8Two (a b : UInt8) : Bool :=
  (a == 0xe0 && 0xa0 ≤ b && b ≤ 0xbf) || (0xe1 ≤ a && a ≤ 0xec && contByte b) || (a == 0xed && 0x80 ≤ b && b ≤ 0x9f) ||
  (0xee ≤ a && a ≤ 0xef && contByte b)

/-- The first two bytes of a character of four bytes. -/
def utf8Three (a b : UInt8) : Bool :=
  (a == 0xf0 && 0x90 ≤ b && b ≤ 0xbf) || (0xf1 ≤ a && a ≤ 0xf3 && contByte b) || (a == 0xf4 && 0x80 ≤ b && b ≤ 0x8f)

/-- `utf8.Valid` -/
def utf8 : Bytes → Bool
  | [] => true
  | a :: r =>
    if a < 0x80 then utf8 r
    else
      match r with
      | [] => false
      | b :: r =>
        if 0xc2 ≤ a && a ≤ 0xdf && contByte b then utf8 r
        else
          match r with
          | [] => false
          | c :: r =>
            if utf8Two a b && contByte c then utf8 r
            else
              match r with
              | [] => false
              | d :: r => if utf8Three a b && contByte c && contByte d then utf8 r else false

/-- A function of each character of a text, and something else for each byte that does not belong to a character. -/
def utf8Map (g : Bytes → Bytes) (bad : Bytes) : Bytes → Bytes
  | [] => []
  | a :: r =>
    if a < 0x80 then g [a] ++ utf8Map g bad r
    else
      match r with
      | [] => bad
      | b :: r =>
        if 0xc2 ≤ a && a ≤ 0xdf && contByte b then g [a, b] ++ utf8Map g bad r
        else
          match r with
          | [] => bad ++ utf8Map g bad [b]
          | c :: r =>
            if utf8Two a b && contByte c then g [a, b, c] ++ utf8Map g bad r
            else
              match r with
              | [] => bad ++ utf8Map g bad [b, c]
              | d :: r =>
                if utf8Three a b && contByte c && contByte d then g [a, b, c, d] ++ utf8Map g bad r
                else bad ++ utf8Map g bad (b :: c :: d :: r)

/-- What is not UTF-8 is replaced with U+FFFD: `json.Unmarshal` of a text. -/
def utf8Fix (s : Bytes) : Bytes := utf8Map id [0xef, 0xbf, 0xbd] s

/-- What a format can hold. -/
structure Kind where
  str : Bytes → Bool
  bin : Bytes → Bool
  num : Nat → Bool
  time : Nat → Bool
  len : Nat → Bool
  bool : Bool

/-- Values that a format can hold, up to a depth. -/
def Val.fits (K : Kind) : Nat → Val → Bool
  | 0, _ => false
  | f + 1, v =>
    match v with
    | .null => true
    | .bool _ => K.bool
    | .num n => K.num n
    | .str s => K.str s
    | .bin b => K.bin b
    | .time n => K.time n
    | .arr l => K.bool && K.len l.length && l.all (Val.fits K f)
    | .obj l => K.len l.length && l.all (fun p => K.str p.1 && Val.fits K f p.2)

/-! ## CBOR -/

/-- The argument of a CBOR head. -/
def cborArg (ai : Nat) (b : Bytes) : Option (Nat × Bytes) :=
  if ai < 24 then some (ai, b)
  else if ai = 24 then takeBe 1 b
  else if ai = 25 then takeBe 2 b
  else if ai = 26 then takeBe 4 b
  else if ai = 27 then takeBe 8 b
  else none

def cborRead : Nat → Bytes → Option (Val × Bytes)
  | 0, _ => none
  | _, [] => none
  | f + 1, h :: b =>
    if h = 0xf6 then some (.null, b)
    else if h = 0xf5 then some (.bool true, b)
    else if h = 0xf4 then some (.bool false, b)
    else
      match cborArg (h.toNat % 32) b with
      | none => none
      | some (n, b) =>
        if h.toNat / 32 = 0 then some (.num n, b)
        else if h.toNat / 32 = 2 then (takeN n b).map fun (x, r) => (.bin x, r)
        else if h.toNat / 32 = 3 then (takeN n b).bind fun (x, r) => if utf8 x then some (.str x, r) else none
        else if h.toNat / 32 = 4 then (readItems (cborRead f) n b).map fun (x, r) => (.arr x, r)
        else if h.toNat / 32 = 5 then (readPairs (cborRead f) n b).map fun (x, r) => (.obj x, r)
        else none

def cborHead (major n : Nat) : Bytes :=
  if n < 24 then [UInt8.ofNat (major * 32 + n)]
  else if n < 2 ^ 8 then UInt8.ofNat (major * 32 + 24) :: beBytes 1 n
  else if n < 2 ^ 16 then UInt8.ofNat (major * 32 + 25) :: beBytes 2 n
  else if n < 2 ^ 32 then UInt8.ofNat (major * 32 + 26) :: beBytes 4 n
  else UInt8.ofNat (major * 32 + 27) :: beBytes 8 n

def cborWrite : Nat → Val → Bytes
  | 0, _ => []
  | f + 1, v =>
    match v with
    | .null => [0xf6]
    | .bool b => [if b then 0xf5 else 0xf4]
    | .num n => cborHead 0 n
    | .time _ => []
    | .bin b => cborHead 2 b.length ++ b
    | .str b => cborHead 3 b.length ++ b
    | .arr l => cborHead 4 l.length ++ l.flatMap (cborWrite f)
    | .obj l => cborHead 5 l.length ++ l.flatMap fun p => cborHead 3 p.1.length ++ p.1 ++ cborWrite f p.2

def cborKind : Kind where
  str s := utf8 s && decide (s.length < 2 ^ 64)
  bin b := decide (b.length < 2 ^ 64)
  num n := decide (n < 2 ^ 64)
  time _ := false
  len n := decide (n < 2 ^ 64)
  bool := true

/-! ## MsgPack: maps of texts, bytes and points in time -/

def packRead : Nat → Bytes → Option (Val × Bytes)
  | 0, _ => none
  | _, [] => none
  | f + 1, h :: b =>
    if 0x80 ≤ h.toNat ∧ h.toNat < 0x90 then (readPairs (packRead f) (h.toNat - 0x80) b).map fun (x, r) => (.obj x, r)
    else if 0xa0 ≤ h.toNat ∧ h.toNat < 0xc0 then (takeN (h.toNat - 0xa0) b).map fun (x, r) => (.str x, r)
    else if h.toNat = 0xc0 then some (.null, b)
    else if h.toNat = 0xc4 then (takeBe 1 b).bind fun (n, b) => (takeN n b).map fun (x, r) => (.bin x, r)
    else if h.toNat = 0xc5 then (takeBe 2 b).bind fun (n, b) => (takeN n b).map fun (x, r) => (.bin x, r)
    else if h.toNat = 0xc6 then (takeBe 4 b).bind fun (n, b) => (takeN n b).map fun (x, r) => (.bin x, r)
    else if h.toNat = 0xd9 then (takeBe 1 b).bind fun (n, b) => (takeN n b).map fun (x, r) => (.str x, r)
    else if h.toNat = 0xda then (takeBe 2 b).bind fun (n, b) => (takeN n b).map fun (x, r) => (.str x, r)
    else if h.toNat = 0xdb then (takeBe 4 b).bind fun (n, b) => (takeN n b).map fun (x, r) => (.str x, r)
    else if h.toNat = 0xde then (takeBe 2 b).bind fun (n, b) => (readPairs (packRead f) n b).map fun (x, r) => (.obj x, r)
    else if h.toNat = 0xdf then (takeBe 4 b).bind fun (n, b) => (readPairs (packRead f) n b).map fun (x, r) => (.obj x, r)
    else if h.toNat = 0xd6 then (takeBe 1 b).bind fun (t, b) => if t = 0xff then (takeBe 4 b).map fun (n, r) => (.time n, r) else none
    else if h.toNat = 0xd7 then (takeBe 1 b).bind fun (t, b) => if t = 0xff then (takeBe 8 b).map fun (n, r) => (.time n, r) else none
    else none

def packStr (s : Bytes) : Bytes :=
  if s.length < 32 then UInt8.ofNat (0xa0 + s.length) :: s
  else if s.length < 2 ^ 8 then 0xd9 :: beBytes 1 s.length ++ s
  else if s.length < 2 ^ 16 then 0xda :: beBytes 2 s.length ++ s
  else 0xdb :: beBytes 4 s.length ++ s

def packBin (b : Bytes) : Bytes :=
  if b.length < 2 ^ 8 then 0xc4 :: beBytes 1 b.length ++ b
  else if b.length < 2 ^ 16 then 0xc5 :: beBytes 2 b.length ++ b
  else 0xc6 :: beBytes 4 b.length ++ b

def packMap (n : Nat) : Bytes :=
  if n < 16 then [UInt8.ofNat (0x80 + n)]
  else if n < 2 ^ 16 then 0xde :: beBytes 2 n
  else 0xdf :: beBytes 4 n

/-- Seconds: in four bytes, or in eight with no nanoseconds. -/
def packTime (n : Nat) : Bytes :=
  if n < 2 ^ 32 then 0xd6 :: 0xff :: beBytes 4 n else 0xd7 :: 0xff :: beBytes 8 n

def packWrite : Nat → Val → Bytes
  | 0, _ => []
  | f + 1, v =>
    match v with
    | .null => [0xc0]
    | .bool _ => []
    | .num _ => []
    | .time n => packTime n
    | .bin b => packBin b
    | .str b => packStr b
    | .arr _ => []
    | .obj l => packMap l.length ++ l.flatMap fun p => packStr p.1 ++ packWrite f p.2

def packKind : Kind where
  str s := decide (s.length < 2 ^ 32)
  bin b := decide (b.length < 2 ^ 32)
  num _ := false
  time n := decide (n < 2 ^ 34)
  len n := decide (n < 2 ^ 32)
  bool := false

/-! ## JSON -/

def isWs (c : UInt8) : Bool := c == 32 || c == 9 || c == 10 || c == 13

def skipWs (b : Bytes) : Bytes := b.dropWhile isWs

/-- The UTF-8 of a character of the basic plane. -/
def utf8Char (n : Nat) : Option Bytes :=
  if n < 0x80 then some [UInt8.ofNat n]
  else if n < 0x800 then some [UInt8.ofNat (0xc0 + n / 64), UInt8.ofNat (0x80 + n % 64)]
  else if 0xd800 ≤ n ∧ n < 0xe000 then none
  else some [UInt8.ofNat (0xe0 + n / 4096), UInt8.ofNat (0x80 + n / 64 % 64), UInt8.ofNat (0x80 + n % 64)]

/-- The character of an escape with four hex digits. -/
def jsonUnicode (a b c d : UInt8) : Option Bytes :=
  match hexDecode [a, b, c, d] with
  | .ok [x, y] => utf8Char (x.toNat * 256 + y.toNat)
  | _ => none

/-- The character of an escape with one letter. -/
def jsonEscape (e : UInt8) : Option UInt8 :=
  if e = 34 ∨ e = 92 ∨ e = 47 then some e
  else if e = 98 then some 8
  else if e = 102 then some 12
  else if e = 110 then some 10
  else if e = 114 then some 13
  else if e = 116 then some 9
  else none

/-- The rest of a string. -/
def jsonStr : Bytes → Option (Bytes × Bytes)
  | [] => none
  | c :: r =>
    if c = 34 then some ([], r)
    else if c = 92 then
      match r with
      | [] => none
      | e :: r =>
        if e = 117 then
          match r with
          | h1 :: h2 :: h3 :: h4 :: r =>
            match jsonUnicode h1 h2 h3 h4 with
            | none => none
            | some u => (jsonStr r).map fun x => (u ++ x.1, x.2)
          | _ => none
        else
          match jsonEscape e with
          | none => none
          | some u => (jsonStr r).map fun x => (u :: x.1, x.2)
    else if c < 32 then none
    else (jsonStr r).map fun x => (c :: x.1, x.2)

def isDigit (c : UInt8) : Bool := 48 ≤ c && c ≤ 57

def jsonDigits : Bytes → Nat → Nat × Bytes
  | [], n => (n, [])
  | c :: r, n => if isDigit c then jsonDigits r (n * 10 + (c.toNat - 48)) else (n, c :: r)

/-- The elements of an array, up to its end. -/
def jsonElems (p : Bytes → Option (Val × Bytes)) : Nat → Bytes → Option (List Val × Bytes)
  | 0, _ => none
  | n + 1, b =>
    match p b with
    | none => none
    | some (v, r) =>
      match skipWs r with
      | [] => none
      | c :: r =>
        if c = 44 then (jsonElems p n r).map fun x => (v :: x.1, x.2)
        else if c = 93 then some ([v], r)
        else none

/-- The members of an object, up to its end. -/
def jsonMembers (p : Bytes → Option (Val × Bytes)) : Nat → Bytes → Option (List (Bytes × Val) × Bytes)
  | 0, _ => none
  | n + 1, b =>
    match skipWs b with
    | [] => none
    | q :: r =>
      if q = 34 then
        match jsonStr r with
        | none => none
        | some (k, r) =>
          match skipWs r with
          | [] => none
          | c :: r =>
            if c = 58 then
              match p r with
              | none => none
              | some (v, r) =>
                match skipWs r with
                | [] => none
                | c :: r =>
                  if c = 44 then (jsonMembers p n r).map fun x => ((utf8Fix k, v) :: x.1, x.2)
                  else if c = 125 then some ([(utf8Fix k, v)], r)
                  else none
            else none
      else none

/-- The rest of a word. -/
def jsonWord (w b : Bytes) (v : Val) : Option (Val × Bytes) := if b.take w.length = w then some (v, b.drop w.length) else none

def jsonRead : Nat → Bytes → Option (Val × Bytes)
  | 0, _ => none
  | f + 1, b =>
    match skipWs b with
    | [] => none
    | c :: r =>
      if c = 34 then (jsonStr r).map fun x => (.str (utf8Fix x.1), x.2)
      else if c = 91 then
        if (skipWs r).head? = some 93 then some (.arr [], (skipWs r).drop 1)
        else (jsonElems (jsonRead f) (r.length + 1) r).map fun x => (.arr x.1, x.2)
      else if c = 123 then
        if (skipWs r).head? = some 125 then some (.obj [], (skipWs r).drop 1)
        else (jsonMembers (jsonRead f) (r.length + 1) r).map fun x => (.obj x.1, x.2)
      else if c = 110 then jsonWord b!"ull" r .null
      else if c = 116 then jsonWord b!"rue" r (.bool true)
      else if c = 102 then jsonWord b!"alse" r (.bool false)
      else if isDigit c then some (.num (jsonDigits (c :: r) 0).1, (jsonDigits (c :: r) 0).2)
      else none

/-- `json.Unmarshal` -/
def jsonParse (b : Bytes) : Option Val :=
  match jsonRead 10 b with
  | some (v, r) => if skipWs r = [] then some v else none
  | none => none

/-- `strconv.Itoa` -/
def decimal : Nat → Nat → Bytes
  | 0, _ => []
  | f + 1, n => if n < 10 then [UInt8.ofNat (48 + n)] else decimal f (n / 10) ++ [UInt8.ofNat (48 + n % 10)]

/-- `json.Marshal` of a character that is escaped with four hex digits. -/
def jsonHex (a b : UInt8) : Bytes := 92 :: 117 :: hexEncode [a, b]

/-- `json.Marshal` of one byte. -/
def jsonByte (c : UInt8) : Bytes :=
  if c = 34 ∨ c = 92 then [92, c]
  else if c = 8 then [92, 98]
  else if c = 12 then [92, 102]
  else if c = 10 then [92, 110]
  else if c = 13 then [92, 114]
  else if c = 9 then [92, 116]
  else if c < 32 ∨ c = 60 ∨ c = 62 ∨ c = 38 then jsonHex 0 c
  else [c]

/-- `json.Marshal` of a character: U+2028 and U+2029 are escaped. -/
def jsonChar : Bytes → Bytes
  | [a] => jsonByte a
  | [a, b, c] => if a = 0xe2 ∧ b = 0x80 ∧ (c = 0xa8 ∨ c = 0xa9) then jsonHex 0x20 (c - 0x80) else [a, b, c]
  | ch => ch

/-- `json.Marshal` of a text: what is not UTF-8 becomes U+FFFD. -/
def jsonText (s : Bytes) : Bytes := utf8Map jsonChar (jsonHex 0xff 0xfd) s

def jsonQuote (s : Bytes) : Bytes := 34 :: jsonText s ++ [34]

/-- Things with commas between them. -/
def commas {α : Type} (g : α → Bytes) : List α → Bytes
  | [] => []
  | [x] => g x
  | x :: y :: l => g x ++ 44 :: commas g (y :: l)

/-- A new line. -/
def newLine (k : Nat) : Bytes := 10 :: List.replicate k 9

/-- `json.MarshalIndent` with tabs. -/
def jsonWrite : Nat → (depth : Nat) → Val → Bytes
  | 0, _, _ => []
  | f + 1, k, v =>
    match v with
    | .null => b!"null"
    | .bool b => if b then b!"true" else b!"false"
    | .num n => decimal 20 n
    | .time _ => []
    | .bin _ => []
    | .str b => jsonQuote b
    | .arr l =>
      if l.isEmpty then b!"[]" else 91 :: commas (fun v => newLine (k + 1) ++ jsonWrite f (k + 1) v) l ++ newLine k ++ [93]
    | .obj l =>
      if l.isEmpty then b!"{}"
      else 123 :: commas (fun p => newLine (k + 1) ++ jsonQuote p.1 ++ [58, 32] ++ jsonWrite f (k + 1) p.2) l ++ newLine k ++ [125]

def jsonKind : Kind where
  str := utf8
  bin _ := false
  num n := decide (n < 10 ^ 20)
  time _ := false
  len _ := true
  bool := true

/-! ## Structures -/

def Val.get (v : Val) (k : Bytes) : Val :=
  match v with
  | .obj l => (l.lookup k).getD .null
  | _ => .null

/-- base64 with padding, standard alphabet: bytes in JSON. -/
def b64Padded (d : Bytes) : Bytes :=
  b64Encode false d ++ List.replicate ((3 - d.length % 3) % 3) 61

def unpad (s : Bytes) : Bytes := (s.reverse.dropWhile (· == 61)).reverse

/-- Bytes in JSON. -/
def jsonBin (b : Bytes) : Val := .str (b64Padded b)

def Val.asBytes : Val → Res Bytes
  | .null => .ok []
  | .bin b => .ok b
  | .str s => b64Decode false (unpad s)
  | _ => .error .malformed

def Val.asStr : Val → Res Bytes
  | .null => .ok []
  | .str s => .ok s
  | _ => .error .malformed

def Val.asByte : Val → Res UInt8
  | .null => .ok 0
  | .num n => if n < 256 then .ok (UInt8.ofNat n) else .error .malformed
  | _ => .error .malformed

def Val.asBool : Val → Res Bool
  | .null => .ok false
  | .bool b => .ok b
  | _ => .error .malformed

def Val.asInt : Val → Res Int
  | .null => .ok 0
  | .num n => if n < 2 ^ 63 then .ok (Int.ofNat n) else .error .malformed
  | _ => .error .malformed

def mapRes {α β : Type} (f : α → Res β) : List α → Res (List β)
  | [] => .ok []
  | x :: l => do
    let y ← f x
    let ys ← mapRes f l
    .ok (y :: ys)

def Val.asList {α : Type} (f : Val → Res α) : Val → Res (List α)
  | .null => .ok []
  | .arr l => mapRes f l
  | _ => .error .malformed

/-- A member that is left out if it is empty. -/
def omitted (empty : Bool) (k : Bytes) (v : Val) : List (Bytes × Val) := if empty then [] else [(k, v)]

/-- A member that is null if it is empty (an empty slice is nil). -/
def orNull (empty : Bool) (v : Val) : Val := if empty then .null else v

/-- letter.go:34-45 -/
def sealOf (v : Val) : Res Seal := do
  let scheme ← (v.get b!"Scheme").asStr
  let id ← (v.get b!"ID").asStr
  let value ← (v.get b!"Value").asBytes
  .ok { scheme := scheme, id := id, value := value }

def sealVal (w : Bytes → Val) (s : Seal) : Val :=
  .obj (omitted s.scheme.isEmpty b!"Scheme" (.str s.scheme) ++ omitted s.id.isEmpty b!"ID" (.str s.id) ++
    omitted s.value.isEmpty b!"Value" (w s.value))

/-- letter.go:18-31 -/
def letterOf (v : Val) : Res Letter := do
  let version ← (v.get b!"Version").asByte
  let suiteID ← (v.get b!"SuiteID").asStr
  let nonce ← (v.get b!"Nonce").asBytes
  let keys ← (v.get b!"Keys").asList sealOf
  let data ← (v.get b!"Data").asBytes
  let mac ← (v.get b!"Mac").asBytes
  let signatures ← (v.get b!"Signatures").asList sealOf
  let applyKeys ← (v.get b!"ApplyKeys").asBool
  .ok { version := version, suiteID := suiteID, nonce := nonce, keys := keys, data := data, mac := mac, signatures := signatures, applyKeys := applyKeys }

def letterVal (w : Bytes → Val) (l : Letter) : Val :=
  .obj ([(b!"Version", .num l.version.toNat), (b!"SuiteID", .str l.suiteID), (b!"Nonce", orNull l.nonce.isEmpty (w l.nonce))] ++
    omitted l.keys.isEmpty b!"Keys" (.arr (l.keys.map (sealVal w))) ++ omitted l.data.isEmpty b!"Data" (w l.data) ++
    omitted l.mac.isEmpty b!"Mac" (w l.mac) ++ omitted l.signatures.isEmpty b!"Signatures" (.arr (l.signatures.map (sealVal w))) ++
    omitted (!l.applyKeys) b!"ApplyKeys" (.bool l.applyKeys))

/-- `dsd.Load`: the first byte tells the format. -/
def dsdLoad (b : Bytes) : Res Val :=
  match b with
  | [] => .error .malformed
  | c :: r =>
    if c = 67 then
      match cborRead 10 r with
      | some (v, []) => .ok v
      | _ => .error .malformed
    else if c = 77 then
      match packRead 10 r with
      | some (v, []) => .ok v
      | _ => .error .malformed
    else if c = 74 then
      match jsonParse r with
      | some v => .ok v
      | none => .error .malformed
    else .error .malformed

/-- `dsd.Dump` as CBOR. -/
def dumpCbor (v : Val) : Res Bytes := if v.fits cborKind 10 then .ok (67 :: cborWrite 10 v) else .error .unsupported

/-- `dsd.Dump` as MsgPack. -/
def dumpPack (v : Val) : Res Bytes := if v.fits packKind 10 then .ok (77 :: packWrite 10 v) else .error .unsupported

/-- `dsd.DumpIndent` as JSON. -/
def dumpJson (v : Val) : Res Bytes := if v.fits jsonKind 10 then .ok (74 :: jsonWrite 10 0 v) else .error .unsupported

def Val.asTime : Val → Res Nat
  | .time n => .ok n
  | _ => .error .malformed

def textPair (p : Bytes × Val) : Res (Bytes × Bytes) := do
  let v ← p.2.asStr
  .ok (p.1, v)

def Val.asTexts : Val → Res (List (Bytes × Bytes))
  | .null => .ok []
  | .obj l => mapRes textPair l
  | _ => .error .malformed

/-- filesig/main.go:19-29 -/
def signedOf (v : Val) : Res SignedData := do
  let hash ← (v.get b!"LabeledHash").asBytes
  let at_ ← (v.get b!"SignedAt").asTime
  let meta_ ← (v.get b!"MetaData").asTexts
  .ok { labeledHash := hash, signedAt := at_, metaData := meta_ }

def signedVal (x : SignedData) : Val :=
  .obj [(b!"LabeledHash", orNull x.labeledHash.isEmpty (.bin x.labeledHash)), (b!"SignedAt", .time x.signedAt),
    (b!"MetaData", orNull x.metaData.isEmpty (.obj (x.metaData.map fun p => (p.1, .str p.2))))]

/-- The part before a zero, and the part after it, if there is one. -/
def cutZero (s : Bytes) : Bytes × Option Bytes :=
  (s.takeWhile (· != 0), if s.contains 0 then some ((s.dropWhile (· != 0)).drop 1) else none)

def zeroText : Val → Res Bytes
  | .null => .ok []
  | .str s => .ok (0 :: s)
  | _ => .error .malformed

def optText : Option Bytes → Val
  | none => .null
  | some s => .str s

/-- signet.go:46-53: the model keeps the members besides the name (owner, dates; no details) as one text, with zeros between them. -/
def infoOf (v : Val) : Res (Option SignetInfo) :=
  match v with
  | .null => .ok none
  | v => do
    let name ← (v.get b!"Name").asStr
    let owner ← (v.get b!"Owner").asStr
    let created ← zeroText (v.get b!"Created")
    let expires ← zeroText (v.get b!"Expires")
    .ok (some { name := name, rest := owner ++ created ++ expires })

def infoVal (i : SignetInfo) : Val :=
  .obj [(b!"Name", .str i.name), (b!"Owner", .str (cutZero i.rest).1),
    (b!"Created", optText ((cutZero i.rest).2.map fun r => (cutZero r).1)),
    (b!"Expires", optText ((cutZero i.rest).2.bind fun r => (cutZero r).2)),
    (b!"Details", .null)]

/-- signet.go:24-43 -/
def signetOf (v : Val) : Res Signet := do
  let version ← (v.get b!"Version").asByte
  let id ← (v.get b!"ID").asStr
  let scheme ← (v.get b!"Scheme").asStr
  let key ← (v.get b!"Key").asBytes
  let isPublic ← (v.get b!"Public").asBool
  let info ← infoOf (v.get b!"Info")
  .ok { version := version, id := id, scheme := scheme, key := key, isPublic := isPublic, info := info }

def infoMember (i : Option SignetInfo) : List (Bytes × Val) :=
  match i with
  | none => []
  | some i => [(b!"Info", infoVal i)]

def signetVal (w : Bytes → Val) (s : Signet) : Val :=
  .obj ([(b!"Version", .num s.version.toNat), (b!"ID", .str s.id), (b!"Scheme", .str s.scheme), (b!"Key", orNull s.key.isEmpty (w s.key))] ++
    omitted (!s.isPublic) b!"Public" (.bool s.isPublic) ++ infoMember s.info)

/-- Only what is exported is written. -/
def plainSignet (s : Signet) : Bool := !s.protection && s.signature.isNone && s.loadedPub.isNone && s.loadedPriv.isNone

/-- envelope.go:13-41 -/
def envelopeOf (v : Val) : Res Envelope := do
  let version ← (v.get b!"Version").asByte
  let name ← (v.get b!"Name").asStr
  let suiteID ← (v.get b!"SuiteID").asStr
  let secrets ← (v.get b!"Secrets").asList signetOf
  let senders ← (v.get b!"Senders").asList signetOf
  let recipients ← (v.get b!"Recipients").asList signetOf
  let level ← (v.get b!"SecurityLevel").asInt
  .ok { version := version, name := name, suiteID := suiteID, secrets := secrets, senders := senders, recipients := recipients, securityLevel := level }

def envelopeVal (w : Bytes → Val) (e : Envelope) : Val :=
  .obj [(b!"Version", .num e.version.toNat), (b!"Name", .str e.name), (b!"SuiteID", .str e.suiteID),
    (b!"Secrets", orNull e.secrets.isEmpty (.arr (e.secrets.map (signetVal w)))),
    (b!"Senders", orNull e.senders.isEmpty (.arr (e.senders.map (signetVal w)))),
    (b!"Recipients", orNull e.recipients.isEmpty (.arr (e.recipients.map (signetVal w)))),
    (b!"SecurityLevel", .num e.securityLevel.toNat)]

def plainEnvelope (e : Envelope) : Bool :=
  e.suite.isNone && !e.opening && decide (0 ≤ e.securityLevel ∧ e.securityLevel < 2 ^ 63) && (e.secrets ++ e.senders ++ e.recipients).all plainSignet

/-- letter-file.go:33, 69: the header of a letter file. -/
def realHeader : HeaderCodec where
  dump l := dumpJson (letterVal jsonBin l)
  load b := do
    let v ← dsdLoad b
    letterOf v

/-- filesig/format_armor.go:78, letter.go:178 and filesig/main.go:68, 90. -/
def realCodec : FileCodec where
  dump l := dumpCbor (letterVal .bin l)
  load b := do
    let v ← dsdLoad b
    letterOf v
  dumpFile x := dumpPack (signedVal x)
  loadFile b := do
    let v ← dsdLoad b
    signedOf v

def loadSignetVal (b : Bytes) : Res Signet := do
  let v ← dsdLoad b
  signetOf v

def loadEnvelopeVal (b : Bytes) : Res Envelope := do
  let v ← dsdLoad b
  envelopeOf v

/-- truststores/io.go:24, 49, 69, 95: signets and envelopes in files are JSON; signet.go:271, 284, envelope.go:309, 322: in texts they are CBOR. -/
def realDsd : Dsd where
  dumpSignet s := if plainSignet s then dumpJson (signetVal jsonBin s) else .error .unsupported
  loadSignet := loadSignetVal
  dumpEnvelope e := if plainEnvelope e then dumpJson (envelopeVal jsonBin e) else .error .unsupported
  loadEnvelope := loadEnvelopeVal
  textSignet s := if plainSignet s then dumpCbor (signetVal .bin s) else .error .unsupported
  textEnvelope e := if plainEnvelope e then dumpCbor (envelopeVal .bin e) else .error .unsupported

/-- letter-file.go:33, 69: as `realHeader`, for all letters. -/
def goHeader : HeaderCodec where
  dump l := .ok (74 :: jsonWrite 10 0 (letterVal jsonBin l))
  load := realHeader.load

/-- filesig/format_armor.go:78, letter.go:166, 178 and filesig/main.go:68, 90: as `realCodec`, for all letters. (The sizes of slices are below 2^63.) -/
def goCodec : FileCodec where
  dump l := .ok (67 :: cborWrite 10 (letterVal .bin l))
  load := realCodec.load
  dumpFile x := .ok (77 :: packWrite 10 (signedVal x))
  loadFile := realCodec.loadFile

/-- truststores/io.go, signet.go:271, envelope.go:309: as `realDsd`, whatever the texts are. -/
def goDsd : Dsd where
  dumpSignet s := if plainSignet s then .ok (74 :: jsonWrite 10 0 (signetVal jsonBin s)) else .error .unsupported
  loadSignet := loadSignetVal
  dumpEnvelope e := if plainEnvelope e then .ok (74 :: jsonWrite 10 0 (envelopeVal jsonBin e)) else .error .unsupported
  loadEnvelope := loadEnvelopeVal
  textSignet s := if plainSignet s then .ok (67 :: cborWrite 10 (signetVal .bin s)) else .error .unsupported
  textEnvelope e := if plainEnvelope e then .ok (67 :: cborWrite 10 (envelopeVal .bin e)) else .error .unsupported

end Jess.Formats
