import Verif.Model.Basic

/-!
# Text encodings used by the code: hex, base64 without padding, base58

Not part of `/repo`: `encoding/hex`, `encoding/base64` (`RawStdEncoding`, `RawURLEncoding`) of the Go standard library and
`github.com/mr-tron/base58` are dependencies. These definitions are part of the trusted base.
-/

namespace Jess

/-! ## hex -/

/-- `hex.EncodeToString`: the character of a digit. -/
def hexChar (n : Nat) : UInt8 := if n < 10 then UInt8.ofNat (48 + n) else UInt8.ofNat (87 + n)

/-- `hex.fromHexChar`: upper and lower case. -/
def hexVal (c : UInt8) : Option Nat :=
  if 48 ≤ c.toNat ∧ c.toNat ≤ 57 then some (c.toNat - 48)
  else if 97 ≤ c.toNat ∧ c.toNat ≤ 102 then some (c.toNat - 87)
  else if 65 ≤ c.toNat ∧ c.toNat ≤ 70 then some (c.toNat - 55)
  else none

/-- `hex.EncodeToString`. -/
def hexEncode (d : Bytes) : Bytes := d.flatMap (fun b => [hexChar (b.toNat / 16), hexChar (b.toNat % 16)])

/-- `hex.DecodeString`. -/
def hexDecode : Bytes → Res Bytes
  | [] => .ok []
  | [_] => .error .malformed
  | a :: b :: r =>
    match hexVal a, hexVal b with
    | some x, some y =>
      match hexDecode r with
      | .ok d => .ok (UInt8.ofNat (x * 16 + y) :: d)
      | .error e => .error e
    | _, _ => .error .malformed

/-! ## base64 -/

/-- The alphabet of `base64.StdEncoding` or (if `url`) `base64.URLEncoding`. -/
def b64Char (url : Bool) (n : Nat) : UInt8 :=
  if n < 26 then UInt8.ofNat (65 + n)
  else if n < 52 then UInt8.ofNat (71 + n)
  else if n < 62 then UInt8.ofNat (n - 4)
  else if n = 62 then (if url then 45 else 43)
  else (if url then 95 else 47)

/-- The value of a character of the alphabet. -/
def b64Val (url : Bool) (c : UInt8) : Option Nat :=
  if 65 ≤ c.toNat ∧ c.toNat ≤ 90 then some (c.toNat - 65)
  else if 97 ≤ c.toNat ∧ c.toNat ≤ 122 then some (c.toNat - 71)
  else if 48 ≤ c.toNat ∧ c.toNat ≤ 57 then some (c.toNat + 4)
  else if c = (if url then 45 else 43) then some 62
  else if c = (if url then 95 else 47) then some 63
  else none

/-- The 6 bit groups of the data. -/
def b64Groups : Bytes → List Nat
  | [] => []
  | [a] => [a.toNat / 4, a.toNat % 4 * 16]
  | [a, b] => [a.toNat / 4, a.toNat % 4 * 16 + b.toNat / 16, b.toNat % 16 * 4]
  | a :: b :: c :: r =>
    a.toNat / 4 :: (a.toNat % 4 * 16 + b.toNat / 16) :: (b.toNat % 16 * 4 + c.toNat / 64) :: c.toNat % 64 :: b64Groups r

/-- `Encoding.EncodeToString` without padding. -/
def b64Encode (url : Bool) (d : Bytes) : Bytes := (b64Groups d).map (b64Char url)

/-- The bytes of 6 bit groups. The unused bits of an incomplete group are ignored (the encodings are not strict). -/
def b64Bytes : List Nat → Res Bytes
  | [] => .ok []
  | [_] => .error .malformed
  | [a, b] => .ok [UInt8.ofNat (a * 4 + b / 16)]
  | [a, b, c] => .ok [UInt8.ofNat (a * 4 + b / 16), UInt8.ofNat (b % 16 * 16 + c / 4)]
  | a :: b :: c :: d :: r =>
    match b64Bytes r with
    | .error e => .error e
    | .ok bs => .ok (UInt8.ofNat (a * 4 + b / 16) :: UInt8.ofNat (b % 16 * 16 + c / 4) :: UInt8.ofNat (c % 4 * 64 + d) :: bs)

/-- The values of all characters. Line breaks are skipped (`decodeQuantum` ignores them). -/
def b64Vals (url : Bool) : Bytes → Res (List Nat)
  | [] => .ok []
  | c :: r =>
    if c = 10 ∨ c = 13 then b64Vals url r
    else
      match b64Val url c with
      | none => .error .malformed
      | some v =>
        match b64Vals url r with
        | .error e => .error e
        | .ok vs => .ok (v :: vs)

/-- `Encoding.DecodeString` without padding. -/
def b64Decode (url : Bool) (s : Bytes) : Res Bytes :=
  match b64Vals url s with
  | .error e => .error e
  | .ok vs => b64Bytes vs

/-! ## base58 -/

/-- The digits of a number, with fuel. -/
def digitsLoop (b : Nat) : (fuel n : Nat) → List Nat
  | 0, _ => []
  | f + 1, n => if n = 0 ∨ b < 2 then [] else digitsLoop b f (n / b) ++ [n % b]

/-- The digits of a number in a base, most significant first, without leading zeros. -/
def toDigits (b n : Nat) : List Nat := digitsLoop b n n

/-- The number of digits. -/
def ofDigits (b : Nat) (ds : List Nat) : Nat := ds.foldl (fun a d => a * b + d) 0

/-- `base58.BTCAlphabet`. -/
def b58Alphabet : Bytes := b!"123456789ABCDEFGHJKLMNPQRSTUVWXYZabcdefghijkmnopqrstuvwxyz"

/-- The character of a digit. -/
def b58Char (n : Nat) : UInt8 := b58Alphabet.getD n 0

/-- The value of a character. -/
def b58Val (c : UInt8) : Option Nat := b58Alphabet.findIdx? (· == c)

/-- The number of leading zeros. -/
def leadingZeros (ds : List Nat) : Nat := (ds.takeWhile (· == 0)).length

/-- `base58.Encode`: leading zero bytes are kept as leading '1's. -/
def b58Encode (d : Bytes) : Bytes :=
  let ds := d.map UInt8.toNat
  (List.replicate (leadingZeros ds) 0 ++ toDigits 58 (ofDigits 256 ds)).map b58Char

/-- The values of all characters. -/
def b58Vals : Bytes → Res (List Nat)
  | [] => .ok []
  | c :: r =>
    match b58Val c with
    | none => .error .malformed
    | some v =>
      match b58Vals r with
      | .error e => .error e
      | .ok vs => .ok (v :: vs)

/-- `base58.Decode`: the empty string is an error. -/
def b58Decode (s : Bytes) : Res Bytes :=
  match s with
  | [] => .error .malformed
  | _ =>
    match b58Vals s with
    | .error e => .error e
    | .ok vs => .ok ((List.replicate (leadingZeros vs) 0 ++ toDigits 256 (ofDigits 58 vs)).map UInt8.ofNat)

/-! ## Splitting and joining -/

/-- Splits at the bytes that satisfy `p`. The result is not empty. -/
def splitBytes (p : UInt8 → Bool) : Bytes → List Bytes
  | [] => [[]]
  | c :: cs =>
    if p c then [] :: splitBytes p cs
    else
      match splitBytes p cs with
      | [] => [[c]]
      | x :: xs => (c :: x) :: xs

/-- Go's `strings.Join`. -/
def joinBytes (sep : Bytes) : List Bytes → Bytes
  | [] => []
  | [x] => x
  | x :: y :: xs => x ++ sep ++ joinBytes sep (y :: xs)

end Jess
