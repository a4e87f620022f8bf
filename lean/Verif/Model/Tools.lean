import Verif.Model.Requirements

/-!
# Tool, hash tool and suite tables: `tools/`, `hashtools/`, `suites*.go`
-/

namespace Jess

/-- tools/tool.go:33-78 tool purposes. -/
inductive Purpose where
  | keyDerivation | passDerivation | keyExchange | keyEncapsulation | signing
  | integratedCipher | cipher | mac
  deriving DecidableEq, Repr

/-- tools/tool.go:19-31 `ToolInfo` with the options of tool.go:81-105 as flags (`OptionStreaming` is not used by any
tool). Comment and author are left out. -/
structure ToolInfo where
  name : Bytes
  purpose : Purpose
  needsManagedHasher : Bool := false
  needsDedicatedHasher : Bool := false
  needsSecurityLevel : Bool := false
  needsDefaultKeySize : Bool := false
  hasState : Bool := false
  keySize : Nat := 0
  nonceSize : Nat := 0
  securityLevel : Int := 0
  deriving DecidableEq, Repr

/-- The tools registered by the imports in tools.go:5-6 / tools/all/all.go. One entry per `tools.Register` call:
tools/gostdlib/aes-ctr.go:20-43, aes-gcm.go:20-43, chacha20-poly1305.go:12-23, salsa20.go:10-22, hmac.go:11-23,
poly1305.go:12-22, hkdf.go:15-25, tools/blake3/kdf.go:14-23, pbkdf2.go:13-29, scrypt.go:10-26, tools/ecdh/x25519.go:14-24,
nist.go:22-49, ed25519.go:13-22, rsa-pss.go:11-23, rsa-oaep.go:11-23. -/
def toolTable : List ToolInfo := [
  { name := b!"AES128-CTR", purpose := .cipher, hasState := true, keySize := 16, nonceSize := 16, securityLevel := 128 },
  { name := b!"AES192-CTR", purpose := .cipher, hasState := true, keySize := 24, nonceSize := 16, securityLevel := 192 },
  { name := b!"AES256-CTR", purpose := .cipher, hasState := true, keySize := 32, nonceSize := 16, securityLevel := 256 },
  { name := b!"AES128-GCM", purpose := .integratedCipher, hasState := true, keySize := 16, nonceSize := 12, securityLevel := 128 },
  { name := b!"AES192-GCM", purpose := .integratedCipher, hasState := true, keySize := 24, nonceSize := 12, securityLevel := 192 },
  { name := b!"AES256-GCM", purpose := .integratedCipher, hasState := true, keySize := 32, nonceSize := 12, securityLevel := 256 },
  { name := b!"CHACHA20-POLY1305", purpose := .integratedCipher, hasState := true, keySize := 32, nonceSize := 12, securityLevel := 128 },
  { name := b!"SALSA20", purpose := .cipher, hasState := true, keySize := 32, nonceSize := 8, securityLevel := 256 },
  { name := b!"HMAC", purpose := .mac, needsDedicatedHasher := true, hasState := true },
  { name := b!"POLY1305", purpose := .mac, hasState := true, keySize := 32, securityLevel := 128 },
  { name := b!"HKDF", purpose := .keyDerivation, needsDedicatedHasher := true },
  { name := b!"BLAKE3-KDF", purpose := .keyDerivation, securityLevel := 128 },
  { name := b!"PBKDF2-SHA2-256", purpose := .passDerivation, needsDefaultKeySize := true },
  { name := b!"SCRYPT-20", purpose := .passDerivation, needsDefaultKeySize := true },
  { name := b!"ECDH-X25519", purpose := .keyExchange, securityLevel := 128 },
  { name := b!"ECDH-P224", purpose := .keyExchange, securityLevel := 112 },
  { name := b!"ECDH-P256", purpose := .keyExchange, securityLevel := 128 },
  { name := b!"ECDH-P384", purpose := .keyExchange, securityLevel := 192 },
  { name := b!"ECDH-P521", purpose := .keyExchange, securityLevel := 256 },
  { name := b!"Ed25519", purpose := .signing, needsManagedHasher := true, securityLevel := 128 },
  { name := b!"RSA-PSS", purpose := .signing, needsManagedHasher := true, needsSecurityLevel := true },
  { name := b!"RSA-OAEP", purpose := .keyEncapsulation, needsDedicatedHasher := true, needsSecurityLevel := true } ]

/-- tools/tools.go:21-27 `Get`. -/
def getTool (name : Bytes) : Option ToolInfo := toolTable.find? (fun t => t.name == name)

/-- hashtools/hashtool.go:11-25 `HashTool`; `cryptoHash` says whether `CryptoHashID` is set. -/
structure HashTool where
  name : Bytes
  digestSize : Nat
  securityLevel : Int
  cryptoHash : Bool := true
  deriving DecidableEq, Repr

/-- hashtools/sha.go:21-118, blake2.go:19-56, blake3.go:12-22: the registered hash tools. -/
def hashTable : List HashTool := [
  { name := b!"SHA2-224", digestSize := 28, securityLevel := 112 },
  { name := b!"SHA2-256", digestSize := 32, securityLevel := 128 },
  { name := b!"SHA2-384", digestSize := 48, securityLevel := 192 },
  { name := b!"SHA2-512", digestSize := 64, securityLevel := 256 },
  { name := b!"SHA2-512-224", digestSize := 28, securityLevel := 112 },
  { name := b!"SHA2-512-256", digestSize := 32, securityLevel := 128 },
  { name := b!"SHA3-224", digestSize := 28, securityLevel := 112 },
  { name := b!"SHA3-256", digestSize := 32, securityLevel := 128 },
  { name := b!"SHA3-384", digestSize := 48, securityLevel := 192 },
  { name := b!"SHA3-512", digestSize := 64, securityLevel := 256 },
  { name := b!"BLAKE2s-256", digestSize := 32, securityLevel := 128 },
  { name := b!"BLAKE2b-256", digestSize := 32, securityLevel := 128 },
  { name := b!"BLAKE2b-384", digestSize := 48, securityLevel := 192 },
  { name := b!"BLAKE2b-512", digestSize := 64, securityLevel := 256 },
  { name := b!"BLAKE3", digestSize := 32, securityLevel := 128, cryptoHash := false } ]

/-- hashtools/tools.go `Get`. -/
def getHash (name : Bytes) : Option HashTool := hashTable.find? (fun t => t.name == name)

/-- suite.go:11-17 `Suite`. -/
structure Suite where
  id : Bytes
  tools : List Bytes
  provides : Requirements
  securityLevel : Int
  status : Nat
  deriving DecidableEq, Repr

open Requirements in
/-- suites_v1.go, suites_v2.go: the registered suites, in registration order. -/
def builtinSuites : List Suite := [
  -- suites_v1.go:5-11
  { id := b!"key_v1", tools := [b!"HKDF(BLAKE2b-256)", b!"CHACHA20-POLY1305"], provides := full, securityLevel := 128, status := 2 },
  -- suites_v1.go:13-19
  { id := b!"pw_v1", tools := [b!"SCRYPT-20", b!"HKDF(BLAKE2b-256)", b!"CHACHA20-POLY1305"], provides := full, securityLevel := 128, status := 2 },
  -- suites_v1.go:21-27
  { id := b!"rcpt_v1", tools := [b!"ECDH-X25519", b!"HKDF(BLAKE2b-256)", b!"CHACHA20-POLY1305"], provides := full.remove SenderAuthentication, securityLevel := 128, status := 2 },
  -- suites_v1.go:29-35
  { id := b!"sign_v1", tools := [b!"Ed25519(BLAKE2b-256)"], provides := (empty.add Integrity).add SenderAuthentication, securityLevel := 128, status := 2 },
  -- suites_v1.go:38-44
  { id := b!"signfile_v1", tools := [b!"Ed25519(SHA2-256)"], provides := (empty.add Integrity).add SenderAuthentication, securityLevel := 128, status := 2 },
  -- suites_v1.go:46-52
  { id := b!"v1", tools := [b!"ECDH-X25519", b!"Ed25519(BLAKE2b-256)", b!"HKDF(BLAKE2b-256)", b!"CHACHA20-POLY1305"], provides := full, securityLevel := 128, status := 2 },
  -- suites_v1.go:54-60
  { id := b!"w1", tools := [b!"ECDH-X25519", b!"HKDF(BLAKE2b-256)", b!"CHACHA20-POLY1305"], provides := full.remove SenderAuthentication, securityLevel := 128, status := 2 },
  -- suites_v2.go:5-11
  { id := b!"key_v2", tools := [b!"BLAKE3-KDF", b!"CHACHA20-POLY1305"], provides := full, securityLevel := 128, status := 1 },
  -- suites_v2.go:13-19
  { id := b!"pw_v2", tools := [b!"SCRYPT-20", b!"BLAKE3-KDF", b!"CHACHA20-POLY1305"], provides := full, securityLevel := 128, status := 1 },
  -- suites_v2.go:21-27
  { id := b!"rcpt_v2", tools := [b!"ECDH-X25519", b!"BLAKE3-KDF", b!"CHACHA20-POLY1305"], provides := full.remove SenderAuthentication, securityLevel := 128, status := 1 },
  -- suites_v2.go:29-35
  { id := b!"sign_v2", tools := [b!"Ed25519(BLAKE3)"], provides := (empty.add Integrity).add SenderAuthentication, securityLevel := 128, status := 1 },
  -- suites_v2.go:38-44
  { id := b!"signfile_v2", tools := [b!"Ed25519(BLAKE3)"], provides := (empty.add Integrity).add SenderAuthentication, securityLevel := 128, status := 1 },
  -- suites_v2.go:46-52
  { id := b!"v2", tools := [b!"ECDH-X25519", b!"Ed25519(BLAKE3)", b!"BLAKE3-KDF", b!"CHACHA20-POLY1305"], provides := full, securityLevel := 128, status := 1 },
  -- suites_v2.go:54-60
  { id := b!"w2", tools := [b!"ECDH-X25519", b!"BLAKE3-KDF", b!"CHACHA20-POLY1305"], provides := full.remove SenderAuthentication, securityLevel := 128, status := 1 } ]

/-- suites.go:30-39 `registerSuite`: the registry is `suitesList` (the map has the same content, keyed by ID). -/
def registerSuite (reg : List Suite) (s : Suite) : List Suite :=
  if reg.any (fun t => t.id == s.id) then reg else reg ++ [s]

/-- suites.go:42-45 `GetSuite`. -/
def getSuite (reg : List Suite) (id : Bytes) : Option Suite := reg.find? (fun t => t.id == id)

/-- The registry after package initialization. -/
def suiteRegistry : List Suite := builtinSuites.foldl registerSuite []

/-- `strings.Split(toolID, "(")`: the segments before the first and between the first and second parenthesis. -/
def splitParen : Bytes → Bytes × Option Bytes
  | [] => ([], none)
  | c :: cs =>
    if c = 40 then ([], some (cs.takeWhile (· ≠ 40)))
    else let (a, b) := splitParen cs; (c :: a, b)

/-- `strings.Trim(s, "()")`. -/
def trimParens (s : Bytes) : Bytes :=
  let p : UInt8 → Bool := fun c => c == 40 || c == 41
  (((s.dropWhile p).reverse).dropWhile p).reverse

/-- session.go:117-123: splits a tool ID into tool name and argument. -/
def parseToolID (t : Bytes) : Bytes × Bytes :=
  match splitParen t with
  | (a, none) => (a, [])
  | (a, some b) => (a, trimParens b)

end Jess
