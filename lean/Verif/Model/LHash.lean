import Verif.Model.Container
import Verif.Model.Encoding

/-! # Labeled hashes: `lhash/` -/

namespace Jess

/-- lhash/algs.go:28-50, 52-95: the supported algorithms, with the digest size of the hash function that `new` returns. (The
sizes are those of the hash functions of the Go standard library, golang.org/x/crypto and zeebo/blake3.) -/
def lhashAlgs : List (Nat × Bytes × Nat) :=
  [(8, b!"SHA2_224", 28), (9, b!"SHA2_256", 32), (10, b!"SHA2_384", 48), (11, b!"SHA2_512", 64), (12, b!"SHA2_512_224", 28),
   (13, b!"SHA2_512_256", 32), (16, b!"SHA3_224", 28), (17, b!"SHA3_256", 32), (18, b!"SHA3_384", 48), (19, b!"SHA3_512", 64),
   (24, b!"BLAKE2s_256", 32), (25, b!"BLAKE2b_256", 32), (26, b!"BLAKE2b_384", 48), (27, b!"BLAKE2b_512", 64), (32, b!"BLAKE3", 32)]

/-- lhash/algs.go:52-95 `Algorithm.new`, with `Size()` of the result; `none` is nil. -/
def lhashSize (alg : Nat) : Option Nat := (lhashAlgs.find? (fun a => a.1 == alg)).map (fun a => a.2.2)

/-- lhash/algs.go:97-138 `Algorithm.String`. -/
def lhashName (alg : Nat) : Bytes := ((lhashAlgs.find? (fun a => a.1 == alg)).map (fun a => a.2.1)).getD b!"unknown"

/-- lhash/labeledhash.go:19-22 `LabeledHash`. -/
structure LabeledHash where
  alg : Nat
  digest : Bytes
  deriving DecidableEq, Repr

/-- The hash functions: by algorithm ID. -/
abbrev Hashes := Nat → Bytes → Bytes

/-- The hash functions return digests of their size. -/
def Hashes.Sized (H : Hashes) : Prop := ∀ alg n, lhashSize alg = some n → ∀ d, (H alg d).length = n

/-- lhash/labeledhash.go:25-34 `Digest`: a nil hasher panics. -/
def lhashDigest (H : Hashes) (alg : Nat) (data : Bytes) : Res LabeledHash :=
  match lhashSize alg with
  | none => .error .panic
  | some _ => .ok { alg := alg, digest := H alg data }

/-- What is read from an `io.Reader`: the chunks, and whether it ends with an error (other than EOF). -/
structure ReadAll where
  chunks : List Bytes
  failed : Bool := false

/-- lhash/labeledhash.go:36-63 `DigestFromReader` (and `DigestFile`, for a file that can be opened). The hash functions are
incremental: the state is what was written so far. -/
def lhashReader (H : Hashes) (alg : Nat) (r : ReadAll) : Res LabeledHash :=
  match lhashSize alg with
  | none => .error .panic
  | some _ => if r.failed then .error .env else .ok { alg := alg, digest := H alg (r.chunks.foldl (· ++ ·) []) }

/-- lhash/labeledhash.go:66-97 `Load`. `uint` has 64 bits. -/
def lhashLoad (b : Bytes) : Res LabeledHash :=
  match getN64 b with
  | .error e => .error e
  | .ok (alg, r) =>
    match getBlock r with
    | .error e => .error e
    | .ok (digest, rest) =>
      if rest.length > 0 then .error .malformed
      else
        match lhashSize alg with
        | none => .error .unsupported
        | some n => if n ≠ digest.length then .error .malformed else .ok { alg := alg, digest := digest }

/-- lhash/labeledhash.go:145-150 `Bytes`. -/
def LabeledHash.bytes (h : LabeledHash) : Bytes := pack64 h.alg ++ block h.digest

/-- lhash/labeledhash.go:153-155 `Hex`. -/
def LabeledHash.hex (h : LabeledHash) : Bytes := hexEncode h.bytes
/-- lhash/labeledhash.go:159-161 `Base64`. -/
def LabeledHash.base64 (h : LabeledHash) : Bytes := b64Encode true h.bytes
/-- lhash/labeledhash.go:165-167 `Base58`. -/
def LabeledHash.base58 (h : LabeledHash) : Bytes := b58Encode h.bytes

/-- lhash/labeledhash.go:100-107 `FromHex`. -/
def lhashFromHex (s : Bytes) : Res LabeledHash := do lhashLoad (← hexDecode s)
/-- lhash/labeledhash.go:111-118 `FromBase64`. -/
def lhashFromBase64 (s : Bytes) : Res LabeledHash := do lhashLoad (← b64Decode true s)
/-- lhash/labeledhash.go:122-129 `FromBase58`. -/
def lhashFromBase58 (s : Bytes) : Res LabeledHash := do lhashLoad (← b58Decode s)

/-- lhash/labeledhash.go:171-174 `Equal`. -/
def LabeledHash.equal (h o : LabeledHash) : Bool := h.alg == o.alg && h.digest == o.digest

/-- lhash/labeledhash.go:179-181 `EqualRaw`. -/
def LabeledHash.equalRaw (h : LabeledHash) (digest : Bytes) : Bool := h.digest == digest

/-- lhash/labeledhash.go:184-198 `Matches`, `MatchesData`, `MatchesString`. -/
def LabeledHash.matches (H : Hashes) (h : LabeledHash) (data : Bytes) : Res Bool := do
  let o ← lhashDigest H h.alg data
  .ok (h.equal o)

/-- lhash/labeledhash.go:201-218 `MatchesReader`, `MatchesFile`. -/
def LabeledHash.matchesReader (H : Hashes) (h : LabeledHash) (r : ReadAll) : Res Bool := do
  let o ← lhashReader H h.alg r
  .ok (h.equal o)

end Jess
