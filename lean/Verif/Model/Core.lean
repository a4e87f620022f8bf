import Verif.Model.Session

/-!
# Closing, opening and verifying letters: `core.go`

A wire session replaces the key establishment by the handshake (core.go:47-52, 248-252), see `Verif.Model.WireSession`;
everything after it is shared with the functions here.
-/

namespace Jess

/-- State of a tool instance between and during operations: `Setup` fetches key and nonce, `Reset` burns them. `ready` and
`used` are `keyIsSetUp` and `keyUsed` of tools/gostdlib/poly1305.go:27-32 (other tools do not have these flags). -/
structure ToolState where
  key : Bytes := []
  nonce : Bytes := []
  ready : Bool := false
  used : Bool := false
  deriving DecidableEq, Repr

/-- The mutable state of a session: the state of each tool instance with state (`s.toolsWithState`, in order), and the
bytes written into the managed signing hashers (all are fed and reset together, core.go:661-687). -/
structure SState where
  tools : List ToolState := []
  fed : Bytes := []
  deriving DecidableEq, Repr

/-- `s.toolsWithState`, session.go:134-136. -/
def Session.stateful (s : Session) : List ToolInst := s.insts.filter (fun t => t.info.hasState)

/-- The state of a new session. -/
def Session.initState (s : Session) : SState := { tools := s.stateful.map (fun _ => {}) }

/-- helper.go:86-91 `Helper.DefaultSymmetricKeySize`. -/
def Session.helperKeySize (cfg : Config) (s : Session) : Nat := if s.keySize > 0 then s.keySize else cfg.defaultKeySize

/-! ## Tools -/

/-- tools/gostdlib/hkdf.go:35-50, tools/blake3/kdf.go:33-50 `InitKeyDerivation`: the argument check. -/
def kdfInitOK (nonce : Bytes) (material : List Bytes) : Bool :=
  match material with
  | [] => false
  | m :: _ => m.length != 0 && nonce.length != 0

/-- An initialized key derivation: reads `size` bytes at the current offset (hkdf.go:53-68, kdf.go:53-68). All material is
concatenated. -/
def kdfRead (P : Prims) (k : ToolInst) (nonce : Bytes) (material : List Bytes) (off size : Nat) : Res Bytes :=
  P.kdf k.info.name k.hashName nonce material.flatten off size

/-- helper.go:24-33 `NewSessionKey`, and `FillNewSessionKey` of SALSA20 and POLY1305 (with arrays of the tool's key size). -/
def Session.toolKeySize (s : Session) (t : ToolInst) : Nat := if t.info.keySize > 0 then t.info.keySize else s.keySize

/-- Ciphers and integrated ciphers also fetch a nonce in `Setup`, MAC tools do not. -/
def ToolInst.wantsNonce (t : ToolInst) : Bool := t.info.purpose == .cipher || t.info.purpose == .integratedCipher

/-- helper.go:48-60 `NewSessionNonce`. -/
def Session.toolNonceSize (s : Session) (t : ToolInst) : Nat := if t.info.nonceSize > 0 then t.info.nonceSize else s.keySize

/-- The nonce part of `Setup`. -/
def setupNonce (P : Prims) (s : Session) (k : ToolInst) (nonce : Bytes) (material : List Bytes) (off : Nat) (t : ToolInst) :
    Res (Bytes × Nat) :=
  if t.wantsNonce then
    match kdfRead P k nonce material off (s.toolNonceSize t) with
    | .error e => .error e
    | .ok n => .ok (n, off + s.toolNonceSize t)
  else .ok ([], off)

/-- `Setup` of a tool with state: aes-ctr.go:54-77, aes-gcm.go:54-82, chacha20-poly1305.go:35-55, salsa20.go:33-47,
hmac.go:34-42, poly1305.go:35-44. If reading fails the state is left as it was (it is not used before the next setup).
POLY1305 does not clear `keyUsed`. -/
def setupTool (P : Prims) (s : Session) (k : ToolInst) (nonce : Bytes) (material : List Bytes) (off : Nat) (t : ToolInst)
    (old : ToolState) : Res (ToolState × Nat) :=
  match kdfRead P k nonce material off (s.toolKeySize t) with
  | .error e => .error e
  | .ok key =>
    match setupNonce P s k nonce material (off + s.toolKeySize t) t with
    | .error e => .error e
    | .ok (n, off') => .ok ({ key := key, nonce := n, ready := true, used := old.used }, off')

/-- core.go:637-646 `setup`: all tools with state in order, stops at the first error. -/
def setupTools (P : Prims) (s : Session) (k : ToolInst) (nonce : Bytes) (material : List Bytes) :
    Nat → List ToolInst → List ToolState → List ToolState × Res Unit
  | _, [], _ => ([], .ok ())
  | _, _ :: _, [] => ([], .ok ()) -- does not happen, there is a state for each tool
  | off, t :: ts, o :: os =>
    match setupTool P s k nonce material off t o with
    | .error e => (o :: os, .error e)
    | .ok (st, off') =>
      let r := setupTools P s k nonce material off' ts os
      (st :: r.1, r.2)

/-- `Reset` of a tool: burns (overwrites with 0xFF) key and nonce; POLY1305 clears its flags. -/
def ToolState.reset (t : ToolState) : ToolState :=
  { key := t.key.map (fun _ => 0xFF), nonce := t.nonce.map (fun _ => 0xFF), ready := false, used := false }

/-- poly1305.go:68 `keyUsed = true`: the state of the MAC tools after their use. (Also set if an earlier step failed and the
MAC was not reached; the deferred reset follows in any case.) -/
def Session.markUsed (s : Session) (sts : List ToolState) : List ToolState :=
  List.zipWith (fun t st => if t.info.purpose = .mac then { st with used := true } else st) s.stateful sts

/-- The deferred `reset`, core.go:649-659. -/
def Session.resetTools (s : Session) (sts : List ToolState) : List ToolState :=
  (s.markUsed sts).map ToolState.reset

/-- The tools with their states, by purpose. -/
def Session.ready (s : Session) (sts : List ToolState) (p : Purpose) : List (ToolInst × ToolState) :=
  (s.stateful.zip sts).filter (fun x => x.1.info.purpose = p)

/-- core.go:76-81 the cipher loop. -/
def runEncrypt (P : Prims) (l : List (ToolInst × ToolState)) (data : Bytes) : Res Bytes :=
  foldRes (fun d x => P.encrypt x.1.info.name x.2.key x.2.nonce d) data l

/-- core.go:89-94 the integrated cipher loop. -/
def runSeal (P : Prims) (l : List (ToolInst × ToolState)) (ad data : Bytes) : Res Bytes :=
  foldRes (fun d x => P.aeadSeal x.1.info.name x.2.key x.2.nonce ad d) data l

/-- core.go:304-309: errors of the integrated ciphers are integrity violations. -/
def openOne (P : Prims) (ad d : Bytes) (x : ToolInst × ToolState) : Res Bytes :=
  match P.aeadOpen x.1.info.name x.2.key x.2.nonce ad d with
  | .ok r => .ok r
  | .error .panic => .error .panic
  | .error _ => .error .integrity

/-- core.go:304-309 in reversed order. -/
def runUnseal (P : Prims) (l : List (ToolInst × ToolState)) (ad data : Bytes) : Res Bytes :=
  foldRes (openOne P ad) data l.reverse

/-- core.go:312-317 in reversed order (errors keep their class here; stream ciphers do not fail). -/
def runDecrypt (P : Prims) (l : List (ToolInst × ToolState)) (data : Bytes) : Res Bytes :=
  foldRes (fun d x => P.decrypt x.1.info.name x.2.key x.2.nonce d) data l.reverse

/-- `MAC` of a tool: hmac.go:53-79, poly1305.go:57-91 (with its guards). -/
def toolMAC (P : Prims) (t : ToolInst) (st : ToolState) (data ad : Bytes) : Res Bytes :=
  if t.info.name = b!"POLY1305" ∧ (st.ready = false ∨ st.used = true) then .error .config
  else .ok (P.mac t.info.name t.hashName st.key (data ++ ad))

/-- core.go:107-116, 290-297: all MACs, concatenated. -/
def runMACs (P : Prims) (l : List (ToolInst × ToolState)) (data ad : Bytes) : Res Bytes :=
  foldRes (fun acc x => do let m ← toolMAC P x.1 x.2 data ad; .ok (acc ++ m)) [] l

/-- Whether associated data is compiled (core.go:84, 193, 347). -/
def Session.needsAD (s : Session) : Bool := !(s.queue .integratedCipher).isEmpty || !(s.queue .mac).isEmpty

/-- The associated data (nil if it is not needed). -/
def Session.adOf (s : Session) (l : Letter) : Bytes := if s.needsAD then l.compileAD else []

/-! ## Key establishment when closing, core.go:393-520 -/

/-- The letter's key seals and the key material under construction; `ctr` counts the uses of randomness. -/
structure KM where
  keys : List Seal := []
  material : List Bytes := []
  ctr : Nat := 1
  deriving DecidableEq, Repr

/-- A loop (over signets) that stops at the first error but keeps its state, envelope.go:123-163. -/
def loopKM {σ α : Type} (f : σ → α → σ × Res Unit) : σ → List α → σ × Res Unit
  | s, [] => (s, .ok ())
  | s, x :: xs =>
    match f s x with
    | (s', .error e) => (s', .error e)
    | (s', .ok ()) => loopKM f s' xs

/-- The loops over key exchange and encapsulation tools (core.go:432-479, 482-517, 568-605, 608-631): `err` is assigned
in each iteration and only checked after the loop, so the error of one tool is overwritten by the result of the next. A
panic ends everything. -/
def overTools {σ : Type} (f : σ → ToolInst → σ × Res Unit) : σ → Res Unit → List ToolInst → σ × Res Unit
  | s, r, [] => (s, r)
  | s, _, t :: ts =>
    match f s t with
    | (s', .error .panic) => (s', .error .panic)
    | (s', r') => overTools f s' r' ts

/-- core.go:398-407: raw keys. -/
def closeKeys (km : KM) (l : List Signet) : KM :=
  { km with keys := km.keys ++ l.map (fun k => { scheme := schemeKey, id := k.id }),
            material := km.material ++ l.map (·.key) }

/-- core.go:411-417, 551-557: derives the key from a password. -/
def passKey (P : Prims) (cfg : Config) (s : Session) (nonce : Bytes) (k : Signet) : Res Bytes :=
  if k.key.length = 0 then .error .missing
  else
    match s.passDerivator with
    | none => .error .panic
    | some t => P.passKdf t.info.name k.key nonce (s.helperKeySize cfg)

/-- core.go:410-426: one password. -/
def closePw (P : Prims) (cfg : Config) (s : Session) (nonce : Bytes) (km : KM) (k : Signet) : KM × Res Unit :=
  match passKey P cfg s nonce k with
  | .error e => (km, .error e)
  | .ok pk => ({ km with keys := km.keys ++ [{ scheme := schemePassword, id := k.id }], material := km.material ++ [pk] }, .ok ())

/-- tools/ecdh/x25519.go:32-34, nist.go:59-61 `MakeSharedKey`: a missing key panics in aead/ecdh. -/
def makeShared (P : Prims) (tool : Bytes) (loc rem : Signet) : Res Bytes :=
  match loc.loadedPriv, rem.loadedPub with
  | some priv, some pub => .ok (P.dh tool priv pub)
  | _, _ => .error .panic

/-- core.go:436-461: a new ephemeral signet, the shared key and the seal for one recipient. -/
def kxOffer (P : Prims) (t : ToolInst) (seed : Bytes) (rcpt : Signet) : Res (Signet × Bytes × Seal) := do
  let sender ← generateSignet P t.info.name seed
  let shared ← makeShared P t.info.name sender rcpt
  let pub ← sender.asRecipient P
  let stored ← pub.store P
  .ok (sender, shared, { id := rcpt.id, value := stored.key })

/-- core.go:434-475 for one recipient. -/
def closeKX (P : Prims) (rng : Rng) (t : ToolInst) (km : KM) (rcpt : Signet) : KM × Res Unit :=
  match kxOffer P t (rng.seed km.ctr) rcpt with
  | .error e => ({ km with ctr := km.ctr + 1 }, .error e)
  | .ok (_, shared, sl) =>
    ({ keys := km.keys ++ [sl], material := km.material ++ [shared], ctr := km.ctr + 1 }, .ok ())

/-- rsa-oaep.go:32-59 `EncapsulateKey`. -/
def encapsulate (P : Prims) (t : ToolInst) (key seed : Bytes) (rcpt : Signet) : Res Bytes :=
  match rcpt.loadedPub with
  | none => .error .invalidKey
  | some pub =>
    match P.rsaBits pub, t.hash with
    | some bits, some h =>
      if (key.length : Int) > ((bits + 7) / 8 : Nat) - 2 * (h.digestSize : Int) - 2 then .error .config
      else P.encap t.info.name h.name pub key seed
    | _, _ => .error .invalidKey

/-- core.go:493-508: a new key, encapsulated for one recipient. -/
def keOffer (P : Prims) (cfg : Config) (rng : Rng) (s : Session) (ctr : Nat) (t : ToolInst) (rcpt : Signet) :
    Res (Bytes × Seal) := do
  let key ← randomBytes rng ctr (s.helperKeySize cfg)
  let wrapped ← encapsulate P t key (rng.seed ctr) rcpt
  .ok (key, { id := rcpt.id, value := wrapped })

/-- core.go:484-513 for one recipient. -/
def closeKE (P : Prims) (cfg : Config) (rng : Rng) (s : Session) (t : ToolInst) (km : KM) (rcpt : Signet) : KM × Res Unit :=
  match keOffer P cfg rng s km.ctr t rcpt with
  | .error e => ({ km with ctr := km.ctr + 1 }, .error e)
  | .ok (key, sl) =>
    ({ keys := km.keys ++ [sl], material := km.material ++ [key], ctr := km.ctr + 1 }, .ok ())

/-- core.go:393-520 `setupClosingKeyMaterial` (non-wire). -/
def setupClosing (P : Prims) (cfg : Config) (rng : Rng) (s : Session) (nonce : Bytes) : Res KM :=
  let km := closeKeys {} (ofScheme s.env.secrets schemeKey)
  match loopKM (closePw P cfg s nonce) km (ofScheme s.env.secrets schemePassword) with
  | (_, .error e) => .error e
  | (km, .ok ()) =>
    match overTools (fun km t => loopKM (closeKX P rng t) km (ofScheme s.env.recipients t.info.name)) km (.ok ())
        (s.queue .keyExchange) with
    | (_, .error e) => .error e
    | (km, .ok ()) =>
      match overTools (fun km t => loopKM (closeKE P cfg rng s t) km (ofScheme s.env.recipients t.info.name)) km (.ok ())
          (s.queue .keyEncapsulation) with
      | (_, .error e) => .error e
      | (km, .ok ()) => .ok km

/-! ## Key establishment when opening, core.go:522-634 -/

/-- The key material and the index of the next seal. -/
structure OM where
  material : List Bytes := []
  idx : Nat := 0
  deriving DecidableEq, Repr

/-- core.go:550-562: one password. -/
def openPw (P : Prims) (cfg : Config) (s : Session) (nonce : Bytes) (om : OM) (k : Signet) : OM × Res Unit :=
  match passKey P cfg s nonce k with
  | .error e => (om, .error e)
  | .ok pk => ({ material := om.material ++ [pk], idx := om.idx + 1 }, .ok ())

/-- core.go:572-583: the ephemeral signet of the sender, from a seal. -/
def peerSignet (P : Prims) (version : UInt8) (t : ToolInst) (value : Bytes) : Res Signet :=
  ({ version := version, scheme := t.info.name, key := value, isPublic := true } : Signet).load P

/-- core.go:570-601 for one recipient signet; `letter.Keys[sealIndex]` is not guarded. -/
def openKX (P : Prims) (l : Letter) (t : ToolInst) (om : OM) (k : Signet) : OM × Res Unit :=
  match l.keys[om.idx]? with
  | none => (om, .error .panic)
  | some sl =>
    match peerSignet P l.version t sl.value with
    | .error e => ({ om with idx := om.idx + 1 }, .error e)
    | .ok peer =>
      match makeShared P t.info.name k peer with
      | .error e => ({ om with idx := om.idx + 1 }, .error e)
      | .ok shared => ({ material := om.material ++ [shared], idx := om.idx + 1 }, .ok ())

/-- rsa-oaep.go:62-76 `UnwrapKey`: a public signet carries a typed nil private key, which panics in crypto/rsa. -/
def unwrapKey (P : Prims) (t : ToolInst) (wrapped : Bytes) (k : Signet) : Res Bytes :=
  match k.loadedPriv with
  | none => .error .panic
  | some priv => P.unwrap t.info.name t.hashName priv wrapped

/-- core.go:610-627 for one recipient signet. -/
def openKE (P : Prims) (l : Letter) (t : ToolInst) (om : OM) (k : Signet) : OM × Res Unit :=
  match l.keys[om.idx]? with
  | none => (om, .error .panic)
  | some sl =>
    match unwrapKey P t sl.value k with
    | .error e => (om, .error e)
    | .ok key => ({ material := om.material ++ [key], idx := om.idx + 1 }, .ok ())

/-- core.go:522-634 `setupOpeningKeyMaterial` (non-wire). -/
def setupOpening (P : Prims) (cfg : Config) (s : Session) (l : Letter) : Res (List Bytes) :=
  if s.env.secrets.length + s.env.senders.length + s.env.recipients.length < l.keys.length then .error .missing
  else
    let ks := ofScheme s.env.secrets schemeKey
    let om : OM := { material := ks.map (·.key), idx := ks.length }
    match loopKM (openPw P cfg s l.nonce) om (ofScheme s.env.secrets schemePassword) with
    | (_, .error e) => .error e
    | (om, .ok ()) =>
      match overTools (fun om t => loopKM (openKX P l t) om (ofScheme s.env.recipients t.info.name)) om (.ok ())
          (s.queue .keyExchange) with
      | (_, .error e) => .error e
      | (om, .ok ()) =>
        match overTools (fun om t => loopKM (openKE P l t) om (ofScheme s.env.recipients t.info.name)) om (.ok ())
            (s.queue .keyEncapsulation) with
        | (_, .error e) => .error e
        | (om, .ok ()) => .ok om.material

/-! ## Signatures -/

/-- rsa-pss.go:44-46, 70-72: the RSA tool needs a hash function with a `crypto.Hash` ID. -/
def ToolInst.hashUnusable (t : ToolInst) : Bool :=
  t.info.isRSA && !(match t.hash with | some h => h.cryptoHash | none => false)

/-- ed25519.go:32-47, rsa-pss.go:32-53 `Sign`; `digest` is `ManagedHashSum()`. An RSA signet without private key panics
(typed nil), see `Signet.load`. -/
def toolSign (P : Prims) (t : ToolInst) (digest seed : Bytes) (k : Signet) : Res Bytes :=
  match k.loadedPriv with
  | none => if t.info.isRSA then (if t.hashUnusable then .error .config else .error .panic) else .error .invalidKey
  | some priv =>
    if t.hashUnusable then .error .config
    else P.sign t.info.name t.hashName priv digest seed

/-- ed25519.go:50-68, rsa-pss.go:56-77 `Verify`. -/
def toolVerify (P : Prims) (t : ToolInst) (digest sig : Bytes) (k : Signet) : Res Unit :=
  match k.loadedPub with
  | none => .error .invalidKey
  | some pub =>
    if t.hashUnusable then .error .config
    else if P.verify t.info.name t.hashName pub digest sig then .ok ()
    else .error .signature

/-- The (signing tool, sender) pairs visited by core.go:142-161, 217-231, 371-385, in order. -/
def Session.signerPairs (s : Session) : List (ToolInst × Signet) :=
  (s.queue .signing).flatMap (fun t => (ofScheme s.env.senders t.info.name).map (fun k => (t, k)))

/-- core.go:142-161: all signatures; `fed` is what the managed hashers got. -/
def signAll (P : Prims) (rng : Rng) (fed : Bytes) : Nat → List (ToolInst × Signet) → Res (List Seal)
  | _, [] => .ok []
  | ctr, (t, k) :: xs => do
    let sig ← toolSign P t (P.hash t.hashName fed) (rng.seed ctr) k
    let rest ← signAll P rng fed (ctr + 1) xs
    .ok ({ scheme := t.info.name, id := k.id, value := sig } :: rest)

/-- core.go:217-231, 371-385: verifies signature `i` with the `i`-th (tool, sender) pair; `letter.Signatures[sigIndex]` is
not guarded. -/
def verifyAll (P : Prims) (fed : Bytes) (sigs : List Seal) : Nat → List (ToolInst × Signet) → Res Unit
  | _, [] => .ok ()
  | i, (t, k) :: xs =>
    match sigs[i]? with
    | none => .error .panic
    | some sl =>
      match toolVerify P t (P.hash t.hashName fed) sl.value k with
      | .error e => .error e
      | .ok () => verifyAll P fed sigs (i + 1) xs

/-! ## Close, Open, Verify -/

/-- core.go:75-117 the encryption part of `Close`, after `setup`. -/
def protect (P : Prims) (s : Session) (sts : List ToolState) (l : Letter) (data : Bytes) : Res Letter := do
  let d ← runEncrypt P (s.ready sts .cipher) data
  let d ← runSeal P (s.ready sts .integratedCipher) (s.adOf l) d
  let mac ← runMACs P (s.ready sts .mac) d (s.adOf l)
  .ok { l with data := d, mac := mac }

/-- core.go:127-162 the signing part of `Close`; returns the bytes in the managed hashers, which are reset at the end. -/
def signLetter (P : Prims) (rng : Rng) (s : Session) (st : SState) (ctr : Nat) (ad : Bytes) (l : Letter) :
    SState × Res Letter :=
  if (s.queue .signing).isEmpty then (st, .ok l)
  else
    ({ st with fed := [] },
      match signAll P rng (st.fed ++ l.data ++ l.compileSigningData ad) ctr s.signerPairs with
      | .error e => .error e
      | .ok sigs => .ok { l with signatures := l.signatures ++ sigs })

/-- core.go:68-117: initializes the tools from the key derivation at offset `off`, encrypts, and resets the tools. -/
def encryptLetter (P : Prims) (s : Session) (st : SState) (k : ToolInst) (material : List Bytes) (off : Nat) (l : Letter)
    (data : Bytes) : SState × Res Letter :=
  match setupTools P s k l.nonce material off s.stateful st.tools with
  | (tools, .error e) => ({ st with tools := tools }, .error e)
  | (tools, .ok ()) => ({ st with tools := s.resetTools tools }, protect P s tools l data)

/-- core.go:12-165 `Close` for a non-wire session. The deferred resets are part of the state that is returned. The copy of
the data at core.go:24-29 has no effect on the result (see `Verif.Model.Memory`). -/
def Session.close (P : Prims) (cfg : Config) (rng : Rng) (s : Session) (st : SState) (data : Bytes) : SState × Res Letter :=
  match randomBytes rng 0 s.nonceSize with
  | .error e => (st, .error e)
  | .ok nonce =>
    let l : Letter := { version := s.env.version, suiteID := s.env.suiteID, nonce := nonce }
    match s.kdf with
    | none =>
      if !(s.queue .cipher).isEmpty || s.needsAD then (st, .error .config)
      else signLetter P rng s st 1 [] { l with data := data }
    | some k =>
      match setupClosing P cfg rng s nonce with
      | .error e => (st, .error e)
      | .ok km =>
        if kdfInitOK nonce km.material then
          match encryptLetter P s st k km.material 0 { l with keys := km.keys } data with
          | (st, .error e) => (st, .error e)
          | (st, .ok l) => signLetter P rng s st km.ctr (s.adOf l) l
        else (st, .error .config)

/-- core.go:198-232, 352-386 the signature check of `Open` and `Verify`. -/
def checkSignatures (P : Prims) (s : Session) (st : SState) (l : Letter) : SState × Res Unit :=
  if (s.queue .signing).isEmpty then (st, .ok ())
  else
    ({ st with fed := [] },
      if s.env.senders.length ≠ l.signatures.length then .error .signature
      else verifyAll P (st.fed ++ l.data ++ l.compileSigningData (s.adOf l)) l.signatures 0 s.signerPairs)

/-- core.go:277-319 the decryption part of `Open`, after `setup`. -/
def unprotect (P : Prims) (s : Session) (sts : List ToolState) (l : Letter) : Res Bytes := do
  let mac ← runMACs P (s.ready sts .mac) l.data (s.adOf l)
  if !(s.queue .mac).isEmpty && l.mac != mac then .error .integrity
  else do
    let d ← runUnseal P (s.ready sts .integratedCipher) (s.adOf l) l.data
    runDecrypt P (s.ready sts .cipher) d

/-- core.go:270-319: initializes the tools, decrypts, and resets the tools. -/
def decryptLetter (P : Prims) (s : Session) (st : SState) (k : ToolInst) (material : List Bytes) (off : Nat) (l : Letter) :
    SState × Res Bytes :=
  match setupTools P s k l.nonce material off s.stateful st.tools with
  | (tools, .error e) => ({ st with tools := tools }, .error e)
  | (tools, .ok ()) => ({ st with tools := s.resetTools tools }, unprotect P s tools l)

/-- core.go:168-320 `Open` for a non-wire session. -/
def Session.open (P : Prims) (cfg : Config) (s : Session) (st : SState) (l : Letter) : SState × Res Bytes :=
  if l.version ≠ 1 then (st, .error .version)
  else
    match checkSignatures P s st l with
    | (st, .error e) => (st, .error e)
    | (st, .ok ()) =>
      match s.kdf with
      | none => if !(s.queue .cipher).isEmpty || s.needsAD then (st, .error .config) else (st, .ok l.data)
      | some k =>
        match setupOpening P cfg s l with
        | .error e => (st, .error e)
        | .ok material =>
          if kdfInitOK l.nonce material then decryptLetter P s st k material 0 l
          else (st, .error .config)

/-- core.go:323-391 `Verify`. -/
def Session.verify (P : Prims) (s : Session) (st : SState) (l : Letter) : SState × Res Unit :=
  if l.version ≠ 1 then (st, .error .version)
  else if (s.queue .signing).isEmpty then (st, .error .missing)
  else checkSignatures P s st l

end Jess
