import Verif.Model.Letter
import Verif.Model.Tools

/-!
# Cryptographic primitives, randomness, configuration

The primitives the tools call (golang.org/x/crypto, crypto/*, aead/ecdh, zeebo/blake3) are not part of /repo. They are
an abstract structure of functions over bytes; what is assumed about them is stated where a theorem needs it.
A loaded key (`crypto.PublicKey`, `crypto.PrivateKey`) is an abstract byte string.
-/

namespace Jess

/-- The primitives behind the tools; the first argument is the tool name, a `hash` argument the hash tool name. -/
structure Prims where
  /-- tools/gostdlib/hkdf.go:32-64, tools/blake3/kdf.go:31-69: the key stream for nonce and concatenated material,
  `size` bytes from offset `off` (HKDF output is limited, so reading can fail). -/
  kdf : (tool hash nonce material : Bytes) → (off size : Nat) → Res Bytes
  /-- scrypt.go:37-39, pbkdf2.go:40-42 -/
  passKdf : (tool pw salt : Bytes) → (size : Nat) → Res Bytes
  /-- `GenerateKey` of x25519.go, nist.go, ed25519.go, rsa-keys.go: (public, private) from a random seed -/
  genKey : (tool seed : Bytes) → Res (Bytes × Bytes)
  /-- `LoadKey`: parses a stored key; the private key is absent if the key is public -/
  loadKey : (tool key : Bytes) → (isPublic : Bool) → Res (Bytes × Option Bytes)
  /-- `StoreKey`: serializes -/
  storeKey : (tool pub : Bytes) → (priv : Option Bytes) → Res Bytes
  /-- `ComputeSecret` of aead/ecdh -/
  dh : (tool priv pub : Bytes) → Bytes
  /-- rsa.EncryptOAEP / rsa.DecryptOAEP -/
  encap : (tool hash pub key seed : Bytes) → Res Bytes
  unwrap : (tool hash priv wrapped : Bytes) → Res Bytes
  /-- stream ciphers: salsa20.go:49-62, aes-ctr.go:88-101 -/
  encrypt : (tool key nonce data : Bytes) → Res Bytes
  decrypt : (tool key nonce data : Bytes) → Res Bytes
  /-- AEAD Seal / Open: aes-gcm.go, chacha20-poly1305.go:66-80 -/
  aeadSeal : (tool key nonce ad data : Bytes) → Res Bytes
  aeadOpen : (tool key nonce ad data : Bytes) → Res Bytes
  /-- HMAC / Poly1305 over one byte string -/
  mac : (tool hash key msg : Bytes) → Bytes
  /-- the hash functions of hashtools/ -/
  hash : (name msg : Bytes) → Bytes
  /-- signatures over a digest -/
  sign : (tool hash priv digest seed : Bytes) → Res Bytes
  verify : (tool hash pub digest sig : Bytes) → Bool
  /-- modulus size of an RSA public key in bits, if the key is an RSA key (rsa-keys.go:149-152) -/
  rsaBits : Bytes → Option Nat

/-- Randomness: what the `i`-th read of the configured reader returns for `n` requested bytes (possibly fewer bytes, or
an error), and the randomness the `i`-th key generation, encapsulation or signature consumes. -/
structure Rng where
  read : Nat → Nat → Res Bytes
  seed : Nat → Bytes

/-- random.go:24-37 `RandomBytes`. -/
def randomBytes (rng : Rng) (i n : Nat) : Res Bytes := do
  let b ← rng.read i n
  if b.length ≠ n then .error .env else .ok b

/-- defaults.go:6-10 global settings. Key sizes are natural numbers (a negative argument of `SetDefaultKeySize` behaves
like 0). `pwLevel` is password.go:40-92 `CalculatePasswordSecurityLevel`. -/
structure Config where
  defaultLevel : Int := 128
  minLevel : Int := 0
  defaultKeySize : Nat := 16
  minKeySize : Nat := 0
  pwLevel : (pw : Bytes) → (iterations : Nat) → Int

/-- defaults.go:26-29 `SetMinimumSecurityLevel`. -/
def Config.setMinimumSecurityLevel (c : Config) (l : Int) : Config := { c with defaultLevel := l, minLevel := l }

/-- defaults.go:32-35 `SetDefaultKeySize`. -/
def Config.setDefaultKeySize (c : Config) (n : Nat) : Config := { c with defaultKeySize := n, minKeySize := n }

/-! ## Signets, signet.go -/

/-- signet.go:20 -/ def schemeKey : Bytes := b!"key"
/-- signet.go:19 -/ def schemePassword : Bytes := b!"pw"

/-- signet.go:45-53 `SignetInfo`: the name and everything else (opaque). -/
structure SignetInfo where
  name : Bytes := []
  rest : Bytes := []
  deriving DecidableEq, Repr

/-- signet.go:24-43 `Signet`. `Protection` is represented by whether it is set (protected signets are refused
everywhere), `Signature` is opaque. The cached tool (`signet.tool`) is always the tool named by the scheme; the ephemeral
peers of core.go:561-566 (cached tool without a scheme) carry the tool's name as scheme here. -/
structure Signet where
  version : UInt8 := 0
  id : Bytes := []
  scheme : Bytes := []
  key : Bytes := []
  isPublic : Bool := false
  protection : Bool := false
  info : Option SignetInfo := none
  signature : Option Bytes := none
  loadedPub : Option Bytes := none
  loadedPriv : Option Bytes := none
  deriving DecidableEq, Repr

/-- The tools that override `LoadKey`, `StoreKey` and `GenerateKey` (x25519.go, nist.go, ed25519.go, rsa-keys.go); the
others inherit toollogic.go:279-291, which return `ErrNotImplemented`. -/
def Purpose.usesSignets : Purpose → Bool
  | .keyExchange | .keyEncapsulation | .signing => true
  | _ => false

/-- signet.go:165-183 `Signet.LoadKey`. -/
def Signet.load (P : Prims) (s : Signet) : Res Signet :=
  if s.loadedPub.isSome then .ok s
  else if s.protection then .error .unsupported
  else
    match getTool s.scheme with
    | none => .error .notFound
    | some t =>
      if t.purpose.usesSignets then
        match P.loadKey t.name s.key s.isPublic with
        | .error e => .error e
        | .ok (pub, priv) => .ok { s with loadedPub := some pub, loadedPriv := priv }
      else .error .unsupported

/-- signet.go:216-229 `Signet.StoreKey`. A missing public key fails the type assertion in the tool.
(Signets loaded as public Ed25519 or RSA keys hold a typed nil private key, see `Verif.Props.Signet`.) -/
def Signet.store (P : Prims) (s : Signet) : Res Signet :=
  if s.key.length ≠ 0 then .ok s
  else
    match getTool s.scheme with
    | none => .error .notFound
    | some t =>
      if t.purpose.usesSignets then
        match s.loadedPub with
        | none => .error .invalidKey
        | some pub =>
          match P.storeKey t.name pub s.loadedPriv with
          | .error e => .error e
          | .ok k => .ok { s with key := k, isPublic := s.loadedPriv.isNone }
      else .error .unsupported

/-- signet.go:61-108 `GenerateSignet` / `Signet.GenerateKey` on an empty signet. -/
def generateSignet (P : Prims) (tool seed : Bytes) : Res Signet :=
  match getTool tool with
  | none => .error .notFound
  | some t =>
    if t.purpose.usesSignets then
      match P.genKey t.name seed with
      | .error e => .error e
      | .ok (pub, priv) =>
        .ok { version := 1, scheme := t.name, loadedPub := some pub, loadedPriv := some priv }
    else .error .unsupported

/-- signet.go:136-163 `Signet.AsRecipient`. -/
def Signet.asRecipient (P : Prims) (s : Signet) : Res Signet :=
  if s.scheme = schemeKey ∨ s.scheme = schemePassword then .error .unsupported
  else do
    let l ← s.load P
    .ok { version := l.version, id := l.id, scheme := l.scheme, key := [], isPublic := true, protection := false,
          info := l.info, signature := none, loadedPub := l.loadedPub, loadedPriv := none }

end Jess
