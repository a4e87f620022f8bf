import Verif.Model.Listing
import Verif.Model.FileSig

/-!
# Registration of tools and hash tools

tools/tool.go `ToolInfo`, `With`; tools/tools.go `Register`; the `init` functions of the tools; the same for hashtools/. The other modules
use the tables `toolTable`, `hashTable` and `labeledAlgs`; here they are derived from the calls of `Register` in the code.
-/

namespace Jess

/-! ## Registries -/

/-- tools/tools.go:8-11, hashtools/tools.go:10-16: the map and the list. -/
structure Registry (α : Type) where
  map : Bytes → Option α
  list : List α

/-- Nothing is registered. -/
def Registry.empty (α : Type) : Registry α := ⟨fun _ => none, []⟩

/-- tools/tools.go:14-19, hashtools/tools.go:19-23 `Register`; `sort` is `sort.Sort` by name. -/
def Registry.register {α : Type} (name : α → Bytes) (sort : List α → List α) (r : Registry α) (x : α) : Registry α :=
  { map := fun n => if n = name x then some x else r.map n, list := sort (r.list ++ [x]) }

/-- The registrations in the order of package initialisation. -/
def Registry.ofList {α : Type} (name : α → Bytes) (sort : List α → List α) (l : List α) : Registry α :=
  l.foldl (Registry.register name sort) (Registry.empty α)

/-! ## Tools -/

/-- tools/tool.go:19-31 `ToolInfo` as declared: purposes and options are numbers. `logic` names what the `Factory` of the tool
(tools/tool.go:15) returns. -/
structure ToolDecl where
  name : Bytes := []
  purpose : Nat := 0
  options : List Nat := []
  keySize : Int := 0
  nonceSize : Int := 0
  securityLevel : Int := 0
  comment : Bytes := []
  author : Bytes := []
  logic : Bytes := []
  deriving DecidableEq, Repr

/-- tools/tool.go:118-145 `With`. (The factory is not part of `ToolInfo`.) -/
def ToolDecl.with (ti changes : ToolDecl) : ToolDecl :=
  { name := if changes.name = [] then ti.name else changes.name
    purpose := if changes.purpose = 0 then ti.purpose else changes.purpose
    options := if changes.options.length = 0 then ti.options else changes.options
    keySize := if changes.keySize = 0 then ti.keySize else changes.keySize
    nonceSize := if changes.nonceSize = 0 then ti.nonceSize else changes.nonceSize
    securityLevel := if changes.securityLevel = 0 then ti.securityLevel else changes.securityLevel
    comment := if changes.comment = [] then ti.comment else changes.comment
    author := if changes.author = [] then ti.author else changes.author
    logic := changes.logic }

/-- tools/tool.go:108-115 `HasOption`. -/
def ToolDecl.hasOption (t : ToolDecl) (o : Nat) : Bool := t.options.any (fun e => o == e)

/-- tools/tool.go:33-78: the purposes, numbered from 1. -/
def purposeOf : Nat → Option Purpose
  | 1 => some .keyDerivation
  | 2 => some .passDerivation
  | 3 => some .keyExchange
  | 4 => some .keyEncapsulation
  | 5 => some .signing
  | 6 => some .integratedCipher
  | 7 => some .cipher
  | 8 => some .mac
  | _ => none

/-- tools/tool.go:81-105: the options, numbered from 1: streaming, managed hasher, dedicated hasher, security level, default key size, state. The
record that the other modules use. -/
def ToolDecl.info (t : ToolDecl) : Option ToolInfo :=
  (purposeOf t.purpose).map (fun p =>
    { name := t.name, purpose := p, needsManagedHasher := t.hasOption 2, needsDedicatedHasher := t.hasOption 3, needsSecurityLevel := t.hasOption 4,
      needsDefaultKeySize := t.hasOption 5, hasState := t.hasOption 6, keySize := t.keySize.toNat, nonceSize := t.nonceSize.toNat,
      securityLevel := t.securityLevel })

/-- tools/blake3/kdf.go:13-24. -/
def blake3Decls : List ToolDecl := [
  { name := b!"BLAKE3-KDF", purpose := 1, securityLevel := 128, comment := b!"cryptographic hash function based on Bao and BLAKE2",
    author := b!"Jean-Philippe Aumasson et al., 2020", logic := b!"KDF" }]

/-- tools/ecdh/nist.go:15-19 `nistCurveInfo`. -/
def nistCurveInfo : ToolDecl := { purpose := 3, comment := b!"FIPS 186", author := b!"NIST, 2009" }

/-- tools/ecdh/nist.go:21-50, x25519.go:13-24. -/
def ecdhDecls : List ToolDecl := [
  nistCurveInfo.with { name := b!"ECDH-P224", securityLevel := 112, logic := b!"NistCurve P224" },
  nistCurveInfo.with { name := b!"ECDH-P256", securityLevel := 128, logic := b!"NistCurve P256" },
  nistCurveInfo.with { name := b!"ECDH-P384", securityLevel := 192, logic := b!"NistCurve P384" },
  nistCurveInfo.with { name := b!"ECDH-P521", securityLevel := 256, logic := b!"NistCurve P521" },
  { name := b!"ECDH-X25519", purpose := 3, securityLevel := 128, author := b!"Daniel J. Bernstein, 2005", logic := b!"X25519Curve" }]

/-- tools/gostdlib/aes-ctr.go:11-17; `aes.BlockSize` is 16 (Go standard library). -/
def aesCtrInfo : ToolDecl := { purpose := 7, options := [6], nonceSize := 16, comment := b!"aka Rijndael, FIPS 197", author := b!"Vincent Rijmen and Joan Daemen, 1998" }

/-- tools/gostdlib/aes-gcm.go:11-17. -/
def aesGcmInfo : ToolDecl := { purpose := 6, options := [6], nonceSize := 12, comment := b!"aka Rijndael, FIPS 197", author := b!"Vincent Rijmen and Joan Daemen, 1998" }

/-- tools/gostdlib/aes-ctr.go:20-43, aes-gcm.go:20-43, chacha20-poly1305.go:12-24 (the sizes 32 and 12 are those of golang.org/x/crypto),
ed25519.go:13-23, hkdf.go:15-25, hmac.go:11-23, pbkdf2.go:13-29, poly1305.go:12-23, rsa-oaep.go:11-23, rsa-pss.go:11-23, salsa20.go:10-22, scrypt.go:10-27. -/
def gostdlibDecls : List ToolDecl := [
  aesCtrInfo.with { name := b!"AES128-CTR", keySize := 16, securityLevel := 128, logic := b!"AesCTR" },
  aesCtrInfo.with { name := b!"AES192-CTR", keySize := 24, securityLevel := 192, logic := b!"AesCTR" },
  aesCtrInfo.with { name := b!"AES256-CTR", keySize := 32, securityLevel := 256, logic := b!"AesCTR" },
  aesGcmInfo.with { name := b!"AES128-GCM", keySize := 16, securityLevel := 128, logic := b!"AesGCM" },
  aesGcmInfo.with { name := b!"AES192-GCM", keySize := 24, securityLevel := 192, logic := b!"AesGCM" },
  aesGcmInfo.with { name := b!"AES256-GCM", keySize := 32, securityLevel := 256, logic := b!"AesGCM" },
  { name := b!"CHACHA20-POLY1305", purpose := 6, options := [6], keySize := 32, nonceSize := 12, securityLevel := 128, comment := b!"RFC 7539",
    author := b!"Daniel J. Bernstein, 2008 and 2005", logic := b!"ChaCha20Poly1305" },
  { name := b!"Ed25519", purpose := 5, options := [2], securityLevel := 128, author := b!"Daniel J. Bernstein, 2011", logic := b!"Ed25519" },
  { name := b!"HKDF", purpose := 1, options := [3], securityLevel := 0, comment := b!"RFC 5869", author := b!"Hugo Krawczyk, 2010", logic := b!"HKDF" },
  { name := b!"HMAC", purpose := 8, options := [3, 6], securityLevel := 0, comment := b!"RFC 2104, FIPS 198", author := b!"Mihir Bellare et al., 1996", logic := b!"HMAC" },
  { name := b!"PBKDF2-SHA2-256", purpose := 2, options := [5], securityLevel := 0, comment := b!"PKCS #5 v2.1, RFC 8018",
    author := b!"Burt Kaliski, RSA Laboratories, 2000/2017", logic := b!"PBKDF2 sha256 20000" },
  { name := b!"POLY1305", purpose := 8, options := [6], keySize := 32, securityLevel := 128, comment := b!"RFC 7539", author := b!"Daniel J. Bernstein, 2005", logic := b!"Poly1305" },
  { name := b!"RSA-OAEP", purpose := 4, options := [3, 4], logic := b!"RsaOAEP" },
  { name := b!"RSA-PSS", purpose := 5, options := [2, 4], comment := b!"RFC 8017", author := b!"Mihir Bellare, Phillip Rogaway, 1998", logic := b!"RsaPSS" },
  { name := b!"SALSA20", purpose := 7, options := [6], keySize := 32, nonceSize := 8, securityLevel := 256, author := b!"Daniel J. Bernstein, 2007", logic := b!"Salsa20" },
  { name := b!"SCRYPT-20", purpose := 2, options := [5], securityLevel := 0, author := b!"Colin Percival, 2009", logic := b!"SCRYPT 1048576 8 1" }]

/-- tools/all/all.go:4-9: all registrations. -/
def toolDecls : List ToolDecl := blake3Decls ++ ecdhDecls ++ gostdlibDecls

/-! ## Hash tools -/

/-- The hash functions of the Go standard library, golang.org/x/crypto and zeebo/blake3. -/
inductive HashFn where
  | sha224 | sha256 | sha384 | sha512 | sha512_224 | sha512_256 | sha3_224 | sha3_256 | sha3_384 | sha3_512
  | blake2s_256 | blake2b_256 | blake2b_384 | blake2b_512 | blake3
  deriving DecidableEq, Repr

/-- `Size()` (Go standard library `crypto.Hash.Size`; zeebo/blake3). -/
def HashFn.size : HashFn → Nat
  | .sha224 | .sha512_224 | .sha3_224 => 28
  | .sha256 | .sha512_256 | .sha3_256 | .blake2s_256 | .blake2b_256 | .blake3 => 32
  | .sha384 | .sha3_384 | .blake2b_384 => 48
  | .sha512 | .sha3_512 | .blake2b_512 => 64

/-- hashtools/hashtool.go:11-25 `HashTool` as declared. The sizes are those of a hash function (`crypto.X.Size()`, `crypto.X.New().BlockSize()`):
`digestOf` and `blockOf` say which. `none` is nil or 0. -/
structure HashDecl where
  name : Bytes := []
  newHash : Option HashFn := none
  cryptoHashID : Option HashFn := none
  digestOf : Option HashFn := none
  blockOf : Option HashFn := none
  securityLevel : Int := 0
  comment : Bytes := []
  author : Bytes := []
  labeledAlg : Nat := 0
  deriving DecidableEq, Repr

/-- hashtools/hashtool.go:33-63 `With`. -/
def HashDecl.with (ht changes : HashDecl) : HashDecl :=
  { name := if changes.name = [] then ht.name else changes.name
    newHash := if changes.newHash = none then ht.newHash else changes.newHash
    cryptoHashID := if changes.cryptoHashID = none then ht.cryptoHashID else changes.cryptoHashID
    digestOf := if changes.digestOf = none then ht.digestOf else changes.digestOf
    blockOf := if changes.blockOf = none then ht.blockOf else changes.blockOf
    securityLevel := if changes.securityLevel = 0 then ht.securityLevel else changes.securityLevel
    comment := if changes.comment = [] then ht.comment else changes.comment
    author := if changes.author = [] then ht.author else changes.author
    labeledAlg := if changes.labeledAlg = 0 then ht.labeledAlg else changes.labeledAlg }

/-- The record that the other modules use. -/
def HashDecl.info (h : HashDecl) : Option HashTool :=
  h.digestOf.map (fun f => { name := h.name, digestSize := f.size, securityLevel := h.securityLevel, cryptoHash := h.cryptoHashID.isSome })

/-- hashtools/blake2.go:14-17 `blake2bBase`. -/
def blake2bBase : HashDecl :=
  { comment := b!"RFC 7693, successor of SHA3 finalist, optimized for 64 bit software", author := b!"Jean-Philippe Aumasson et al., 2013" }

/-- hashtools/blake2.go:19-55. The first one has the `CryptoHashID` of another hash function (blake2.go:22). -/
def blake2Decls : List HashDecl := [
  blake2bBase.with {
    name := b!"BLAKE2s-256", newHash := some .blake2s_256, cryptoHashID := some .blake2b_256, digestOf := some .blake2s_256,
    blockOf := some .blake2s_256, securityLevel := 128, comment := b!"RFC 7693, successor of SHA3 finalist, optimized for 8-32 bit software", labeledAlg := 24 },
  blake2bBase.with {
    name := b!"BLAKE2b-256", newHash := some .blake2b_256, cryptoHashID := some .blake2b_256, digestOf := some .blake2b_256,
    blockOf := some .blake2b_256, securityLevel := 128, labeledAlg := 25 },
  blake2bBase.with {
    name := b!"BLAKE2b-384", newHash := some .blake2b_384, cryptoHashID := some .blake2b_384, digestOf := some .blake2b_384,
    blockOf := some .blake2b_384, securityLevel := 192, labeledAlg := 26 },
  blake2bBase.with {
    name := b!"BLAKE2b-512", newHash := some .blake2b_512, cryptoHashID := some .blake2b_512, digestOf := some .blake2b_512,
    blockOf := some .blake2b_512, securityLevel := 256, labeledAlg := 27 }]

/-- hashtools/blake3.go:11-26. -/
def blake3HashDecls : List HashDecl := [
  { name := b!"BLAKE3", newHash := some .blake3, digestOf := some .blake3, blockOf := some .blake3, securityLevel := 128,
    comment := b!"cryptographic hash function based on Bao and BLAKE2", author := b!"Jean-Philippe Aumasson et al., 2020", labeledAlg := 32 }]

/-- hashtools/sha.go:17-20 `sha2Base`. -/
def sha2Base : HashDecl := { comment := b!"FIPS 180-4", author := b!"NSA, 2001" }

/-- hashtools/sha.go:78-81 `sha3Base`. -/
def sha3Base : HashDecl := { comment := b!"aka Keccak, FIPS-202, optimized for hardware", author := b!"Guido Bertoni et al., 2015" }

/-- hashtools/sha.go:21-75, 82-117. -/
def shaDecls : List HashDecl := [
  sha2Base.with {
    name := b!"SHA2-224", newHash := some .sha224, cryptoHashID := some .sha224, digestOf := some .sha224, blockOf := some .sha224,
    securityLevel := 112, author := b!"NSA, 2004", labeledAlg := 8 },
  sha2Base.with {
    name := b!"SHA2-256", newHash := some .sha256, cryptoHashID := some .sha256, digestOf := some .sha256, blockOf := some .sha256,
    securityLevel := 128, labeledAlg := 9 },
  sha2Base.with {
    name := b!"SHA2-384", newHash := some .sha384, cryptoHashID := some .sha384, digestOf := some .sha384, blockOf := some .sha384,
    securityLevel := 192, labeledAlg := 10 },
  sha2Base.with {
    name := b!"SHA2-512", newHash := some .sha512, cryptoHashID := some .sha512, digestOf := some .sha512, blockOf := some .sha512,
    securityLevel := 256, labeledAlg := 11 },
  sha2Base.with {
    name := b!"SHA2-512-224", newHash := some .sha512_224, cryptoHashID := some .sha512_224, digestOf := some .sha512_224, blockOf := some .sha512_224,
    securityLevel := 112, labeledAlg := 12 },
  sha2Base.with {
    name := b!"SHA2-512-256", newHash := some .sha512_256, cryptoHashID := some .sha512_256, digestOf := some .sha512_256, blockOf := some .sha512_256,
    securityLevel := 128, labeledAlg := 13 },
  sha3Base.with {
    name := b!"SHA3-224", newHash := some .sha3_224, cryptoHashID := some .sha3_224, digestOf := some .sha3_224, blockOf := some .sha3_224,
    securityLevel := 112, labeledAlg := 16 },
  sha3Base.with {
    name := b!"SHA3-256", newHash := some .sha3_256, cryptoHashID := some .sha3_256, digestOf := some .sha3_256, blockOf := some .sha3_256,
    securityLevel := 128, labeledAlg := 17 },
  sha3Base.with {
    name := b!"SHA3-384", newHash := some .sha3_384, cryptoHashID := some .sha3_384, digestOf := some .sha3_384, blockOf := some .sha3_384,
    securityLevel := 192, labeledAlg := 18 },
  sha3Base.with {
    name := b!"SHA3-512", newHash := some .sha3_512, cryptoHashID := some .sha3_512, digestOf := some .sha3_512, blockOf := some .sha3_512,
    securityLevel := 256, labeledAlg := 19 }]

/-- hashtools: all registrations. -/
def hashDecls : List HashDecl := blake2Decls ++ blake3HashDecls ++ shaDecls

/-- lhash/algs.go:28-95 `Algorithm.new`: the hash function of a labeled hash algorithm. -/
def lhashFn : Nat → Option HashFn
  | 8 => some .sha224
  | 9 => some .sha256
  | 10 => some .sha384
  | 11 => some .sha512
  | 12 => some .sha512_224
  | 13 => some .sha512_256
  | 16 => some .sha3_224
  | 17 => some .sha3_256
  | 18 => some .sha3_384
  | 19 => some .sha3_512
  | 24 => some .blake2s_256
  | 25 => some .blake2b_256
  | 26 => some .blake2b_384
  | 27 => some .blake2b_512
  | 32 => some .blake3
  | _ => none

/-- tools/gostdlib/rsa-pss.go:32-52 `Sign` (and 55-77 `Verify`): the hash function that computes the digest (`ManagedHashSum`) and the one that
is named to `rsa.SignPSS`, which determines the length of the salt and the mask function. -/
def pssHashes (h : HashDecl) : Option HashFn × Option HashFn := (h.newHash, h.cryptoHashID)

/-- defaults.go:14-23: the recommended toolsets. -/
def recommendedToolsets : List (List Bytes) := [
  [b!"ECDH-X25519", b!"HKDF(SHA2-256)", b!"CHACHA20-POLY1305"], [b!"PBKDF2-SHA2-256", b!"HKDF(SHA2-256)", b!"CHACHA20-POLY1305"],
  [b!"HKDF(SHA2-256)", b!"CHACHA20-POLY1305"], [b!"ECDH-X25519", b!"HKDF(SHA2-256)", b!"CHACHA20-POLY1305"], [b!"Ed25519(SHA2-256)"]]

end Jess
