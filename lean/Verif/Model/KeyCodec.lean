import Verif.Model.Prims
import Verif.Model.Container
import Verif.Model.Encoding

/-!
# Key serialization of the tools: `LoadKey`, `StoreKey` (tools/ecdh/x25519.go, tools/ecdh/nist.go, tools/gostdlib/ed25519.go,
tools/gostdlib/rsa-keys.go), and `Signet.GenerateKey`

Loaded keys are represented by byte strings: X25519 and Ed25519 keys by their bytes, points of the NIST curves by the two
coordinates as blocks (`point`), RSA keys by an opaque byte string.
-/

namespace Jess

/-- The four implementations of `LoadKey`/`StoreKey`. -/
inductive KeyKind where
  | x25519
  | nist
  | ed25519
  | rsa
  deriving DecidableEq, Repr

/-- Which tool uses which implementation (x25519.go:15-27, nist.go:16-50, ed25519.go:14-29, rsa-pss.go, rsa-oaep.go). -/
def keyKind (tool : Bytes) : Option KeyKind :=
  if tool = b!"ECDH-X25519" then some .x25519
  else if tool ∈ [b!"ECDH-P224", b!"ECDH-P256", b!"ECDH-P384", b!"ECDH-P521"] then some .nist
  else if tool = b!"Ed25519" then some .ed25519
  else if tool ∈ [b!"RSA-PSS", b!"RSA-OAEP"] then some .rsa
  else none

/-- The libraries: the checks of aead/ecdh, and PKCS #1 of crypto/x509 (with `Validate` of crypto/rsa). -/
structure KeyLib where
  checkX : Bytes → Bool
  checkNist : (curve : Bytes) → Nat → Nat → Bool
  parsePub : Bytes → Option Bytes
  /-- the private key and its public key -/
  parsePriv : Bytes → Option (Bytes × Bytes)
  marshalPub : Bytes → Bytes
  marshalPriv : Bytes → Bytes

/-- A private key in a signet. `typedNil` is a nil pointer or slice in a non-nil interface: it holds no key, but is not `== nil`. -/
inductive PrivKey where
  | nil
  | typedNil
  | key (b : Bytes)
  deriving DecidableEq, Repr

/-- `big.Int.Bytes`. -/
def natBytes (n : Nat) : Bytes := (toDigits 256 n).map UInt8.ofNat

/-- `big.Int.SetBytes`. -/
def natOfBytes (b : Bytes) : Nat := ofDigits 256 (b.map UInt8.toNat)

/-- A point of a NIST curve. -/
def point (x y : Nat) : Bytes := block (natBytes x) ++ block (natBytes y)

/-- The version check that all implementations start with (for example x25519.go:45-48). -/
def keyVersion (key : Bytes) : Res Bytes :=
  match getN8 key with
  | .error _ => .error .invalidKey
  | .ok (v, r) => if v = 1 then .ok r else .error .invalidKey

/-- x25519.go:37-78 `LoadKey`. -/
def loadX25519 (K : KeyLib) (key : Bytes) (isPublic : Bool) : Res (Bytes × PrivKey) := do
  let r ← keyVersion key
  match getBytes 32 r with
  | .error _ => .error .invalidKey
  | .ok (pub, r) =>
    if K.checkX pub then
      if isPublic then .ok (pub, .nil)
      else
        match getBytes 32 r with
        | .error _ => .error .invalidKey
        | .ok (priv, _) => .ok (pub, .key priv)
    else .error .invalidKey

/-- nist.go:64-106 `LoadKey`. The rest of the data, whatever its length, is the private key. -/
def loadNist (K : KeyLib) (curve key : Bytes) (isPublic : Bool) : Res (Bytes × PrivKey) := do
  let r ← keyVersion key
  let (x, r) ← getBlock r
  let (y, r) ← getBlock r
  if K.checkNist curve (natOfBytes x) (natOfBytes y) then
    .ok (point (natOfBytes x) (natOfBytes y), if isPublic then .nil else .key r)
  else .error .invalidKey

/-- ed25519.go:71-103 `LoadKey`. The private key variable has a slice type, so that it is a typed nil for public keys. The public key
is the second half of the private key. -/
def loadEd25519 (key : Bytes) (isPublic : Bool) : Res (Bytes × PrivKey) := do
  let r ← keyVersion key
  if isPublic then
    if r.length ≠ 32 then .error .invalidKey else .ok (r, .typedNil)
  else if r.length ≠ 64 then .error .invalidKey
  else .ok (r.drop 32, .key r)

/-- rsa-keys.go:19-54 `LoadKey`. -/
def loadRSA (K : KeyLib) (key : Bytes) (isPublic : Bool) : Res (Bytes × PrivKey) := do
  let r ← keyVersion key
  if isPublic then
    match K.parsePub r with
    | none => .error .invalidKey
    | some pub => .ok (pub, .typedNil)
  else
    match K.parsePriv r with
    | none => .error .invalidKey
    | some (pub, priv) => .ok (pub, .key priv)

/-- `LoadKey` of the tool with the given name; tools that do not use signets inherit toollogic.go:279-281. -/
def toolLoadKey (K : KeyLib) (tool key : Bytes) (isPublic : Bool) : Res (Bytes × PrivKey) :=
  match keyKind tool with
  | some .x25519 => loadX25519 K key isPublic
  | some .nist => loadNist K tool key isPublic
  | some .ed25519 => loadEd25519 key isPublic
  | some .rsa => loadRSA K key isPublic
  | none => .error .unsupported

/-- x25519.go:81-106, nist.go:109-137: public and private key. A typed nil does not occur with these tools (the type assertion of the
private key would fail). -/
def storeBoth (pub : Bytes) : PrivKey → Res (Bytes × Bool)
  | .nil => .ok (pack64 1 ++ pub, true)
  | .typedNil => .error .invalidKey
  | .key p => .ok (pack64 1 ++ pub ++ p, false)

/-- ed25519.go:106-132 and rsa-keys.go:57-84 `StoreKey`: either one. A typed nil counts as private key: Ed25519 then stores nothing,
and marshalling a nil RSA key panics. -/
def storeEither (marshalPub marshalPriv : Bytes → Bytes) (nilKey : Res Bytes) (pub : Bytes) : PrivKey → Res (Bytes × Bool)
  | .nil => .ok (pack64 1 ++ marshalPub pub, true)
  | .typedNil => do
    let b ← nilKey
    .ok (pack64 1 ++ b, false)
  | .key p => .ok (pack64 1 ++ marshalPriv p, false)

/-- `StoreKey` of the tool with the given name: the stored key and the public flag. -/
def toolStoreKey (K : KeyLib) (tool pub : Bytes) (priv : PrivKey) : Res (Bytes × Bool) :=
  match keyKind tool with
  | some .x25519 | some .nist => storeBoth pub priv
  | some .ed25519 => storeEither id id (.ok []) pub priv
  | some .rsa => storeEither K.marshalPub K.marshalPriv (.error .panic) pub priv
  | none => .error .unsupported

/-- signet.go:79-108 `Signet.GenerateKey` (x25519.go:109-123, nist.go:140-154, ed25519.go:135-149, rsa-keys.go:87-104). The signet and
the result. -/
def Signet.generateKey (P : Prims) (seed : Bytes) (s : Signet) : Signet × Res Unit :=
  if s.key.length > 0 || s.loadedPriv.isSome || s.loadedPub.isSome then (s, .error .config)
  else
    match getTool s.scheme with
    | none => (s, .error .notFound)
    | some t =>
      if t.purpose.usesSignets then
        match P.genKey t.name seed with
        | .error e => (s, .error e)
        | .ok (pub, priv) => ({ s with loadedPub := some pub, loadedPriv := some priv }, .ok ())
      else (s, .error .unsupported)

/-- The private key as it is seen by the rest of the model: a typed nil holds no key. -/
def PrivKey.toOption : PrivKey → Option Bytes
  | .key b => some b
  | _ => none

/-- The primitives load and store keys with the code above. -/
structure Prims.UsesCodec (P : Prims) (K : KeyLib) : Prop where
  load : ∀ tool key isPublic, P.loadKey tool key isPublic = (toolLoadKey K tool key isPublic).map (fun x => (x.1, x.2.toOption))
  store : ∀ tool pub priv, P.storeKey tool pub priv =
    (toolStoreKey K tool pub (match priv with | none => .nil | some p => .key p)).map (·.1)

end Jess
