import Verif.Model.KeyCodec
import Verif.Model.Memory

/-! # Burning keys in memory: `Burn`, `BurnKey` (helper.go:102-110, signet.go:237-246, tools)

What `Signet.Burn` overwrites depends on the Go type that a loaded key has and on the memory that it shares. Signets are modelled here with the
memory of their stored key and of their loaded keys. Values of `big.Int` are modelled, not the words that hold them (`Set` to zero does not
overwrite the words). -/

namespace Jess

/-- helper.go:102-110 `Burn`, for one slice. -/
def burnSlice (h : Heap) (s : Slice) : Heap := h.write s (List.replicate s.len 255)

/-- The secret fields of `rsa.PrivateKey`; `pre` are the precomputed values. -/
structure RsaSecret where
  d : Nat
  primes : List Nat
  pre : List Nat
  deriving DecidableEq, Repr

/-- An `rsa.PublicKey`, or an `rsa.PrivateKey`, which contains its public key. -/
structure RsaCell where
  n : Nat
  e : Nat
  secret : Option RsaSecret
  deriving DecidableEq, Repr

/-- The memory: arrays of bytes, and the RSA keys by address. -/
structure KeyMem where
  heap : Heap
  rsa : List RsaCell
  deriving DecidableEq, Repr

/-- A loaded key: what the interface value holds. -/
inductive LoadedKey where
  | nil
  /-- a nil slice or pointer in an interface -/
  | typedNil
  /-- `[32]byte`: a copy in the interface -/
  | array (b : Bytes)
  /-- `ecdh.Point` -/
  | point (x y : Nat)
  /-- `[]byte` -/
  | bytes (s : Slice)
  /-- `ed25519.PublicKey` or `ed25519.PrivateKey`: types of their own, not `[]byte` -/
  | edKey (s : Slice)
  /-- `*rsa.PublicKey`: the public key in the cell -/
  | rsaPub (a : Nat)
  /-- `*rsa.PrivateKey` -/
  | rsaPriv (a : Nat)
  deriving DecidableEq, Repr

/-- A signet (signet.go:20-43) with the memory of its keys; `key` is nil or a slice. -/
structure MemSignet where
  scheme : Bytes
  key : Option Slice := none
  isPublic : Bool := false
  isProtected : Bool := false
  pub : LoadedKey := .nil
  priv : LoadedKey := .nil
  deriving DecidableEq, Repr

/-- The fields of RSA keys, which are opaque byte strings in `KeyLib`. -/
structure RsaLib where
  pubOf : Bytes → Nat × Nat
  secretOf : Bytes → RsaSecret

/-- The last `n` bytes of a slice: `CompileData` of a container of one slice after reading from it. -/
def Slice.rest (s : Slice) (n : Nat) : Slice := { arr := s.arr, off := s.off + (s.len - n), len := n, cap := s.cap - (s.len - n) }

/-- A new RSA key. -/
def KeyMem.newRsa (m : KeyMem) (c : RsaCell) : KeyMem × Nat := ({ m with rsa := m.rsa ++ [c] }, m.rsa.length)

/-- `LoadKey` of the tools (x25519.go:37-78, nist.go:64-106, ed25519.go:71-103, rsa-keys.go:19-54), with the types and the memory of the keys.
X25519 keys are copied (54-55, 71-73); the private key of a NIST curve (nist.go:101) and Ed25519 keys (ed25519.go:87, 92-97) are the end of the
stored key; the public key of Ed25519 is a copy for private signets (`Public` of crypto/ed25519). RSA keys are new, and the public key is
part of the private key (`Public` of crypto/rsa). -/
def memLoadKey (K : KeyLib) (R : RsaLib) (kind : KeyKind) (tool : Bytes) (m : KeyMem) (key : Slice) (isPublic : Bool) :
    Res (KeyMem × LoadedKey × LoadedKey) :=
  match kind with
  | .x25519 =>
    match loadX25519 K (m.heap.read key) isPublic with
    | .error e => .error e
    | .ok (pub, .key priv) => .ok (m, .array pub, .array priv)
    | .ok (pub, _) => .ok (m, .array pub, .nil)
  | .nist => do
    let r ← keyVersion (m.heap.read key)
    let (x, r) ← getBlock r
    let (y, r) ← getBlock r
    if K.checkNist tool (natOfBytes x) (natOfBytes y) then
      .ok (m, .point (natOfBytes x) (natOfBytes y), if isPublic then .nil else .bytes (key.rest r.length))
    else .error .invalidKey
  | .ed25519 => do
    let r ← keyVersion (m.heap.read key)
    if isPublic then
      if r.length ≠ 32 then .error .invalidKey else .ok (m, .edKey (key.rest 32), .typedNil)
    else if r.length ≠ 64 then .error .invalidKey
    else .ok ({ m with heap := (m.heap.alloc (r.drop 32)).1 }, .edKey (m.heap.alloc (r.drop 32)).2, .edKey (key.rest 64))
  | .rsa => do
    let r ← keyVersion (m.heap.read key)
    if isPublic then
      match K.parsePub r with
      | none => .error .invalidKey
      | some pub =>
        let (m, a) := m.newRsa { n := (R.pubOf pub).1, e := (R.pubOf pub).2, secret := none }
        .ok (m, .rsaPub a, .typedNil)
    else
      match K.parsePriv r with
      | none => .error .invalidKey
      | some (pub, priv) =>
        let (m, a) := m.newRsa { n := (R.pubOf pub).1, e := (R.pubOf pub).2, secret := some (R.secretOf priv) }
        .ok (m, .rsaPub a, .rsaPriv a)

/-- The stored key as it is read: nil is empty. -/
def MemSignet.keySlice (s : MemSignet) : Slice := s.key.getD { arr := 0, off := 0, len := 0, cap := 0 }

/-- signet.go:168-187 `Signet.LoadKey`. -/
def MemSignet.loadKey (K : KeyLib) (R : RsaLib) (m : KeyMem) (s : MemSignet) : KeyMem × MemSignet × Res Unit :=
  if s.pub ≠ .nil then (m, s, .ok ())
  else if s.isProtected then (m, s, .error .unsupported)
  else
    match getTool s.scheme with
    | none => (m, s, .error .notFound)
    | some t =>
      match keyKind t.name with
      | none => (m, s, .error .unsupported)
      | some k =>
        match memLoadKey K R k t.name m s.keySlice s.isPublic with
        | .error e => (m, s, .error e)
        | .ok (m, pub, priv) => (m, { s with pub := pub, priv := priv }, .ok ())

/-- signet.go:137-166 `Signet.AsRecipient`: shares the public key. -/
def MemSignet.asRecipient (K : KeyLib) (R : RsaLib) (m : KeyMem) (s : MemSignet) : KeyMem × MemSignet × Res MemSignet :=
  if s.scheme = b!"key" ∨ s.scheme = b!"pw" then (m, s, .error .unsupported)
  else
    match s.loadKey K R m with
    | (m, s, .error e) => (m, s, .error e)
    | (m, s, .ok ()) => (m, s, .ok { scheme := s.scheme, key := none, isPublic := true, isProtected := false, pub := s.pub, priv := .nil })

/-- `GenerateKey` of the tools (x25519.go:109-123, nist.go:140-154, ed25519.go:135-149, rsa-keys.go:87-104): the types and the memory of new
keys. `x`, `y` is the point of a NIST curve; RSA keys are given by the cell. -/
def memNewKeys (kind : KeyKind) (m : KeyMem) (pub priv : Bytes) (x y : Nat) (c : RsaCell) : KeyMem × LoadedKey × LoadedKey :=
  match kind with
  | .x25519 => (m, .array pub, .array priv)
  | .nist => ({ m with heap := (m.heap.alloc priv).1 }, .point x y, .bytes (m.heap.alloc priv).2)
  | .ed25519 =>
    let a := m.heap.alloc pub
    ({ m with heap := (a.1.alloc priv).1 }, .edKey a.2, .edKey (a.1.alloc priv).2)
  | .rsa => ((m.newRsa c).1, .rsaPub (m.newRsa c).2, .rsaPriv (m.newRsa c).2)

/-- rsa-keys.go:147-153 `burnBigInt`. -/
def burnBigInt (_ : Nat) : Nat := 0

/-- rsa-keys.go:111-118, 139-140: the public key. -/
def RsaCell.burnPub (c : RsaCell) : RsaCell := { c with n := burnBigInt c.n, e := 0 }

/-- rsa-keys.go:121-138: the private key. -/
def RsaSecret.burn (s : RsaSecret) : RsaSecret :=
  { d := burnBigInt s.d, primes := s.primes.map burnBigInt, pre := s.pre.map burnBigInt }

/-- rsa-keys.go:120-142. -/
def RsaCell.burnPriv (c : RsaCell) : RsaCell := { c.burnPub with secret := c.secret.map RsaSecret.burn }

/-- x25519.go:130-136, 138-144: the assertion makes a copy of the key, and the copy is burnt. -/
def burnCopy (m : KeyMem) : LoadedKey → KeyMem
  | .array b => { m with heap := burnSlice (m.heap.alloc b).1 (m.heap.alloc b).2 }
  | _ => m

/-- x25519.go:125-147 `BurnKey`. -/
def burnX25519 (m : KeyMem) (pub priv : LoadedKey) : KeyMem := burnCopy (burnCopy m pub) priv

/-- nist.go:156-179 `BurnKey`: the public key is never a `*ecdh.Point`. -/
def burnNist (m : KeyMem) (_pub priv : LoadedKey) : KeyMem :=
  match priv with
  | .bytes s => { m with heap := burnSlice m.heap s }
  | _ => m

/-- The type assertion `key.([]byte)` with `Burn` (ed25519.go:157-171). -/
def burnBytes (m : KeyMem) : LoadedKey → KeyMem
  | .bytes s => { m with heap := burnSlice m.heap s }
  | _ => m

/-- ed25519.go:151-174 `BurnKey`: the keys have types of their own, so that the assertion fails. -/
def burnEd25519 (m : KeyMem) (pub priv : LoadedKey) : KeyMem := burnBytes (burnBytes m pub) priv

/-- rsa-keys.go:111-118. -/
def burnRsaPub (m : KeyMem) : LoadedKey → KeyMem
  | .rsaPub a => { m with rsa := m.rsa.modify a RsaCell.burnPub }
  | _ => m

/-- rsa-keys.go:120-142. -/
def burnRsaPriv (m : KeyMem) : LoadedKey → KeyMem
  | .rsaPriv a => { m with rsa := m.rsa.modify a RsaCell.burnPriv }
  | _ => m

/-- rsa-keys.go:106-145 `BurnKey`. -/
def burnRSA (m : KeyMem) (pub priv : LoadedKey) : KeyMem := burnRsaPriv (burnRsaPub m pub) priv

/-- `BurnKey` of the tool with the given name; other tools inherit toollogic.go:293-296. -/
def toolBurnKey (tool : Bytes) (m : KeyMem) (pub priv : LoadedKey) : KeyMem × Res Unit :=
  match keyKind tool with
  | some .x25519 => (burnX25519 m pub priv, .ok ())
  | some .nist => (burnNist m pub priv, .ok ())
  | some .ed25519 => (burnEd25519 m pub priv, .ok ())
  | some .rsa => (burnRSA m pub priv, .ok ())
  | none => (m, .error .unsupported)

/-- signet.go:237-246 `Signet.Burn`. The fields of the signet are not changed. -/
def MemSignet.burn (m : KeyMem) (s : MemSignet) : KeyMem × Res Unit :=
  match getTool s.scheme with
  | none => (m, .error .notFound)
  | some t => toolBurnKey t.name m s.pub s.priv

end Jess
