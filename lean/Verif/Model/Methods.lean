import Verif.Model.LetterOps
import Verif.Model.Registry

/-!
# Which tool implements which method: `tools/toollogic.go` and `tools/*/`

Every tool embeds `ToolLogicBase`, which has all methods of the interface `ToolLogic`. Methods a tool does not override return `ErrNotImplemented`
(toollogic.go:207-296). Some methods that are overridden ask for the hash function of the instance: with none assigned, `HashTool()` is nil and its use
panics, and `ManagedHashSum()` is an error (toollogic.go:166-177).
-/

namespace Jess

/-- toollogic.go:11-125: the methods of the interface `ToolLogic` that do the work of a tool (`InitKeyDerivation`, `DeriveKey` and `DeriveKeyWriteTo` are
one method here: they are only ever overridden together). -/
inductive Method where
  | deriveKey | deriveKeyFromPassword | makeSharedKey | encapsulateKey | unwrapKey | encrypt | decrypt
  | authenticatedEncrypt | authenticatedDecrypt | mac | sign | verify | loadKey | storeKey | generateKey | burnKey | setup | reset
  deriving DecidableEq, Repr

/-- How a method uses the hash function of its instance: not at all, through `HashTool()` or through `ManagedHashSum()`. -/
inductive HashUse where
  | no | tool | managed
  deriving DecidableEq, Repr

/-- The methods a Go type overrides, with their use of the hash function. -/
abbrev MethodSet := List (Method × HashUse)

/-- tools/gostdlib/aes-ctr.go:54-102, salsa20.go:33-72. -/
def streamMethods : MethodSet := [(.setup, .no), (.reset, .no), (.encrypt, .no), (.decrypt, .no)]

/-- tools/gostdlib/aes-gcm.go:54-108, chacha20-poly1305.go:35-81. -/
def aeadMethods : MethodSet := [(.setup, .no), (.reset, .no), (.authenticatedEncrypt, .no), (.authenticatedDecrypt, .no)]

/-- tools/ecdh/nist.go:59-179, x25519.go:32-147: `LoadKey`, `StoreKey`, `GenerateKey`, `BurnKey` and `MakeSharedKey`; the four methods of keys are also
those of tools/gostdlib/rsa-keys.go:19-145 and ed25519.go:71-173. -/
def keyMethods : MethodSet := [(.loadKey, .no), (.storeKey, .no), (.generateKey, .no), (.burnKey, .no)]

/-- The methods each Go type overrides. The name of the type is the first word of `ToolDecl.logic`, the rest are its parameters. -/
def typeMethods (goType : Bytes) : MethodSet :=
  -- aes-ctr.go:54-102, salsa20.go:33-72
  if goType = b!"AesCTR" ∨ goType = b!"Salsa20" then streamMethods
  -- aes-gcm.go:54-108, chacha20-poly1305.go:35-81
  else if goType = b!"AesGCM" ∨ goType = b!"ChaCha20Poly1305" then aeadMethods
  -- hmac.go:34-77
  else if goType = b!"HMAC" then [(.setup, .no), (.reset, .no), (.mac, .tool)]
  -- poly1305.go:35-91
  else if goType = b!"Poly1305" then [(.setup, .no), (.reset, .no), (.mac, .no)]
  -- hkdf.go:35-68
  else if goType = b!"HKDF" then [(.deriveKey, .tool)]
  -- blake3/kdf.go:33-68
  else if goType = b!"KDF" then [(.deriveKey, .no)]
  -- pbkdf2.go:39-47, scrypt.go:38-40
  else if goType = b!"PBKDF2" ∨ goType = b!"SCRYPT" then [(.deriveKeyFromPassword, .no)]
  -- ecdh/x25519.go:32-147, ecdh/nist.go:59-179
  else if goType = b!"X25519Curve" ∨ goType = b!"NistCurve" then (.makeSharedKey, .no) :: keyMethods
  -- ed25519.go:32-173
  else if goType = b!"Ed25519" then (.sign, .managed) :: (.verify, .managed) :: keyMethods
  -- rsa-pss.go:32-77 (which also asks `HashTool()`), rsa-keys.go:19-145
  else if goType = b!"RsaPSS" then (.sign, .managed) :: (.sign, .tool) :: (.verify, .managed) :: (.verify, .tool) :: keyMethods
  -- rsa-oaep.go:32-75, rsa-keys.go:19-145
  else if goType = b!"RsaOAEP" then (.encapsulateKey, .tool) :: (.unwrapKey, .tool) :: keyMethods
  else []

/-- The methods each registered tool overrides: those of the type its factory returns (the calls of `tools.Register`, see Model/Registry). -/
def overridden (tool : Bytes) : MethodSet :=
  match toolDecls.find? (fun d => d.name == tool) with
  | none => []
  | some d => typeMethods (d.logic.takeWhile (fun c => c != 32))

/-- session.go:184-255: what an instance of a session was given. A managed hasher comes with its hash tool. -/
def ToolInst.has (t : ToolInst) : HashUse → Bool
  | .no => true
  | .tool => t.hash.isSome
  | .managed => t.hash.isSome && t.info.needsManagedHasher

/-- What happens when a method is called on an instance with the given hash function: the dummy of toollogic.go:207-296 answers, the use of a missing
hash function panics, or the method does its work. -/
inductive Answer where
  | notImplemented | noHash | works
  deriving DecidableEq, Repr

/-- Go's method lookup through the embedded `ToolLogicBase` (toollogic.go:127-296). -/
def answer (tool hash : Bytes) (m : Method) : Answer :=
  if !(overridden tool).any (fun x => x.1 == m) then .notImplemented
  else if (overridden tool).any (fun x => x.1 == m && x.2 != .no) && (getHash hash).isNone then .noHash
  else .works

/-- The result of a call, if `r` is what the algorithm of the tool returns. -/
def Answer.result {α : Type} (a : Answer) (r : Res α) : Res α :=
  match a with
  | .notImplemented => .error .unsupported
  | .noHash => .error .panic
  | .works => r

/-- The cryptographic libraries as they are reached through the interface `ToolLogic`. Methods without an error in the model return a value that is of no
use (nothing, or false) when they are not implemented. -/
def Prims.dispatched (P : Prims) : Prims where
  kdf := fun tool hash nonce material off size => (answer tool hash .deriveKey).result (P.kdf tool hash nonce material off size)
  passKdf := fun tool pw salt size => (answer tool [] .deriveKeyFromPassword).result (P.passKdf tool pw salt size)
  genKey := fun tool seed => (answer tool [] .generateKey).result (P.genKey tool seed)
  loadKey := fun tool key pub => (answer tool [] .loadKey).result (P.loadKey tool key pub)
  storeKey := fun tool pub priv => (answer tool [] .storeKey).result (P.storeKey tool pub priv)
  dh := fun tool priv pub => if answer tool [] .makeSharedKey = .works then P.dh tool priv pub else []
  encap := fun tool hash pub key seed => (answer tool hash .encapsulateKey).result (P.encap tool hash pub key seed)
  unwrap := fun tool hash priv w => (answer tool hash .unwrapKey).result (P.unwrap tool hash priv w)
  encrypt := fun tool key nonce d => (answer tool [] .encrypt).result (P.encrypt tool key nonce d)
  decrypt := fun tool key nonce d => (answer tool [] .decrypt).result (P.decrypt tool key nonce d)
  aeadSeal := fun tool key nonce ad d => (answer tool [] .authenticatedEncrypt).result (P.aeadSeal tool key nonce ad d)
  aeadOpen := fun tool key nonce ad d => (answer tool [] .authenticatedDecrypt).result (P.aeadOpen tool key nonce ad d)
  mac := fun tool hash key msg => if answer tool hash .mac = .works then P.mac tool hash key msg else []
  hash := fun name msg => if (getHash name).isSome then P.hash name msg else []
  sign := fun tool hash priv d seed => (answer tool hash .sign).result (P.sign tool hash priv d seed)
  verify := fun tool hash pub d sig => answer tool hash .verify == .works && P.verify tool hash pub d sig
  rsaBits := P.rsaBits

end Jess
