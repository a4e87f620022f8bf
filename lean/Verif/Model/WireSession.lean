import Verif.Model.LetterOps

/-!
# Wire sessions: `session-wire.go`, `core-wire.go`

`msgNo` is a Go `uint64`; it is a natural number here (it would wrap after 2^64 messages). Go maps and pointers: the pairs
are held by value, since no two pairs share a signet.
-/

namespace Jess

open Requirements

/-- session-wire.go:10-17 the handshake states. -/
inductive HState where
  | init | idle | sendKey | awaitKey | sendApply | awaitApply
  deriving DecidableEq, Repr

/-- session-wire.go:46-50 `kxPair`. -/
structure KxPair where
  tool : ToolInst
  signet : Option Signet := none
  peer : Option Signet := none
  deriving DecidableEq, Repr

/-- session-wire.go:53-57 `kePair`. -/
structure KePair where
  tool : ToolInst
  signet : Option Signet := none
  sl : Option Seal := none
  deriving DecidableEq, Repr

/-- session-wire.go:29-43 `WireSession`. -/
structure Wire where
  server : Bool := false
  msgNo : Nat := 0
  lastReKey : Nat := 0
  sendCarry : Bytes := []
  recvCarry : Bytes := []
  kx : List KxPair := []
  ke : List KePair := []
  hs : HState := .init
  newMaterial : List Bytes := []
  deriving DecidableEq, Repr

/-- session-wire.go:23 `wireReKeyAfterMsgs`. -/
def wireReKeyAfter : Nat := 10000000

/-- session-wire.go:99-101 `reKeyNeeded`. -/
def Wire.reKeyNeeded (w : Wire) : Bool := decide (w.msgNo - w.lastReKey > wireReKeyAfter)

/-- session-wire.go:25 `requiredWireSessionRequirements`. -/
def wireRequirements : Requirements := full.remove SenderAuthentication

/-- session-wire.go:61-90 `initWireSession`. -/
def initWire (s : Session) : Res Wire := do
  s.reqs.checkComplianceTo wireRequirements
  if s.insts.any (fun t => t.info.purpose == .passDerivation || t.info.purpose == .signing) then .error .unsupported
  else if !(ofScheme s.env.secrets schemeKey).isEmpty then .error .unsupported
  else .ok {}

/-- session-wire.go:93-97 `Server`. -/
def Wire.asServer (w : Wire) : Wire := { w with server := true }

/-- envelope.go:80-92 `Envelope.WireCorrespondence`. -/
def wireCorrespondence (P : Prims) (cfg : Config) (w : World) (reg : List Suite) (e : Envelope) : Res (Session × Wire) := do
  let s ← correspondence P cfg w reg e
  let wire ← initWire s
  .ok (s, wire)

/-- letter.go:138-145 `Letter.WireCorrespondence`. -/
def Letter.wireCorrespondence (P : Prims) (cfg : Config) (w : World) (reg : List Suite) (l : Letter) : Res (Session × Wire) := do
  let e ← l.envelope reg (some (full.remove SenderAuthentication))
  Jess.wireCorrespondence P cfg w reg e

/-! ## Initial key material with pairs, core.go:393-634 with `s.wire != nil` -/

/-- The state of `setupClosingKeyMaterial` in a wire session. -/
structure WKM where
  km : KM
  kx : List KxPair
  ke : List KePair

/-- core.go:434-475: the ephemeral signet is kept (core.go:463-471). -/
def wCloseKX (P : Prims) (rng : Rng) (t : ToolInst) (x : WKM) (rcpt : Signet) : WKM × Res Unit :=
  match kxOffer P t (rng.seed x.km.ctr) rcpt with
  | .error e => ({ x with km := { x.km with ctr := x.km.ctr + 1 } }, .error e)
  | .ok (sender, shared, sl) =>
    ({ km := { keys := x.km.keys ++ [sl], material := x.km.material ++ [shared], ctr := x.km.ctr + 1 },
       kx := x.kx ++ [{ tool := t, signet := some sender }], ke := x.ke }, .ok ())

/-- core.go:484-513: the pair is added first (core.go:486-490). -/
def wCloseKE (P : Prims) (cfg : Config) (rng : Rng) (s : Session) (t : ToolInst) (x : WKM) (rcpt : Signet) : WKM × Res Unit :=
  ({ km := (closeKE P cfg rng s t x.km rcpt).1, kx := x.kx, ke := x.ke ++ [{ tool := t }] }, (closeKE P cfg rng s t x.km rcpt).2)

/-- core.go:393-520 `setupClosingKeyMaterial` in a wire session with the given pairs. -/
def wSetupClosing (P : Prims) (cfg : Config) (rng : Rng) (s : Session) (nonce : Bytes) (kx : List KxPair) (ke : List KePair) :
    WKM × Res Unit :=
  match loopKM (closePw P cfg s nonce) (closeKeys {} (ofScheme s.env.secrets schemeKey)) (ofScheme s.env.secrets schemePassword) with
  | (km, .error e) => ({ km := km, kx := kx, ke := ke }, .error e)
  | (km, .ok ()) =>
    match overTools (fun x t => loopKM (wCloseKX P rng t) x (ofScheme s.env.recipients t.info.name))
        { km := km, kx := kx, ke := ke } (.ok ()) (s.queue .keyExchange) with
    | (x, .error e) => (x, .error e)
    | (x, .ok ()) =>
      overTools (fun x t => loopKM (wCloseKE P cfg rng s t) x (ofScheme s.env.recipients t.info.name)) x (.ok ())
        (s.queue .keyEncapsulation)

/-- The state of `setupOpeningKeyMaterial` in a wire session. -/
structure WOM where
  om : OM
  kx : List KxPair
  ke : List KePair

/-- core.go:570-601: the peer is kept (core.go:584-590). -/
def wOpenKX (P : Prims) (l : Letter) (t : ToolInst) (x : WOM) (k : Signet) : WOM × Res Unit :=
  match l.keys[x.om.idx]? with
  | none => (x, .error .panic)
  | some sl =>
    match peerSignet P l.version t sl.value with
    | .error e => ({ x with om := { x.om with idx := x.om.idx + 1 } }, .error e)
    | .ok peer =>
      match makeShared P t.info.name k peer with
      | .error e => ({ om := { x.om with idx := x.om.idx + 1 }, kx := x.kx ++ [{ tool := t, peer := some peer }], ke := x.ke }, .error e)
      | .ok shared =>
        ({ om := { material := x.om.material ++ [shared], idx := x.om.idx + 1 },
           kx := x.kx ++ [{ tool := t, peer := some peer }], ke := x.ke }, .ok ())

/-- core.go:610-627: the pair is added first (core.go:612-616). -/
def wOpenKE (P : Prims) (l : Letter) (t : ToolInst) (x : WOM) (k : Signet) : WOM × Res Unit :=
  ({ om := (openKE P l t x.om k).1, kx := x.kx, ke := x.ke ++ [{ tool := t }] }, (openKE P l t x.om k).2)

/-- core.go:522-634 `setupOpeningKeyMaterial` in a wire session (the check at 529-541 is skipped). -/
def wSetupOpening (P : Prims) (cfg : Config) (s : Session) (l : Letter) (kx : List KxPair) (ke : List KePair) : WOM × Res Unit :=
  let ks := ofScheme s.env.secrets schemeKey
  match loopKM (openPw P cfg s l.nonce) { material := ks.map (·.key), idx := ks.length } (ofScheme s.env.secrets schemePassword) with
  | (om, .error e) => ({ om := om, kx := kx, ke := ke }, .error e)
  | (om, .ok ()) =>
    match overTools (fun x t => loopKM (wOpenKX P l t) x (ofScheme s.env.recipients t.info.name))
        { om := om, kx := kx, ke := ke } (.ok ()) (s.queue .keyExchange) with
    | (x, .error e) => (x, .error e)
    | (x, .ok ()) =>
      overTools (fun x t => loopKM (wOpenKE P l t) x (ofScheme s.env.recipients t.info.name)) x (.ok ())
        (s.queue .keyEncapsulation)

/-! ## Ephemeral keys, core-wire.go:273-420 -/

/-- core-wire.go:277-296, 338-357: a new signet (stays in the pair also after an error) and its public key for the letter. -/
def newLocal (P : Prims) (t : ToolInst) (seed : Bytes) : Signet × Res Bytes :=
  match generateSignet P t.info.name seed with
  | .error e => ({ version := 1, scheme := t.info.name }, .error e)
  | .ok g =>
    match g.store P with
    | .error e => (g, .error e)
    | .ok g =>
      match g.asRecipient P with
      | .error e => (g, .error e)
      | .ok r =>
        match r.store P with
        | .error e => (g, .error e)
        | .ok r => (g, .ok r.key)

/-- core-wire.go:273-303 `generateLocalKeyExchangeSignets`: the pairs and the new seals. -/
def genKX (P : Prims) (rng : Rng) : Nat → List KxPair → List KxPair × Res (List Seal)
  | _, [] => ([], .ok [])
  | ctr, p :: ps =>
    match p.signet with
    | some _ => (p :: (genKX P rng (ctr + 1) ps).1, (genKX P rng (ctr + 1) ps).2)
    | none =>
      match newLocal P p.tool (rng.seed ctr) with
      | (g, .error e) => ({ p with signet := some g } :: ps, .error e)
      | (g, .ok v) =>
        ({ p with signet := some g } :: (genKX P rng (ctr + 1) ps).1,
          (genKX P rng (ctr + 1) ps).2.map (fun l => { value := v } :: l))

/-- core-wire.go:334-364 `generateLocalKeyEncapsulationSignets`. -/
def genKE (P : Prims) (rng : Rng) : Nat → List KePair → List KePair × Res (List Seal)
  | _, [] => ([], .ok [])
  | ctr, p :: ps =>
    match p.signet with
    | some _ => (p :: (genKE P rng (ctr + 1) ps).1, (genKE P rng (ctr + 1) ps).2)
    | none =>
      match newLocal P p.tool (rng.seed ctr) with
      | (g, .error e) => ({ p with signet := some g } :: ps, .error e)
      | (g, .ok v) =>
        ({ p with signet := some g } :: (genKE P rng (ctr + 1) ps).1,
          (genKE P rng (ctr + 1) ps).2.map (fun l => { value := v } :: l))

/-- core-wire.go:307-327 one pair: the loaded peer and the shared key. -/
def sharedKey (P : Prims) (p : KxPair) : KxPair × Res Bytes :=
  match p.signet, p.peer with
  | none, _ => (p, .error .missing)
  | some _, none => (p, .error .missing)
  | some g, some q =>
    match q.load P with
    | .error e => (p, .error e)
    | .ok q => ({ p with peer := some q }, makeShared P p.tool.info.name g q)

/-- core-wire.go:305-332 `makeSharedKeys`. -/
def sharedKeys (P : Prims) : List KxPair → List KxPair × Res (List Bytes)
  | [] => ([], .ok [])
  | p :: ps =>
    match sharedKey P p with
    | (p, .error e) => (p :: ps, .error e)
    | (p, .ok k) => (p :: (sharedKeys P ps).1, (sharedKeys P ps).2.map (fun l => k :: l))

/-- core-wire.go:368-393 one pair: the pair with the loaded signet, the new key and its seal. -/
def encapOne (P : Prims) (rng : Rng) (s : Session) (ctr : Nat) (p : KePair) : KePair × Res (Bytes × Seal) :=
  match p.signet with
  | none => (p, .error .missing)
  | some g =>
    match g.load P with
    | .error e => (p, .error e)
    | .ok g =>
      match randomBytes rng ctr s.keySize with
      | .error e => ({ p with signet := some g }, .error e)
      | .ok key =>
        match encapsulate P p.tool key (rng.seed ctr) g with
        | .error e => ({ p with signet := some g }, .error e)
        | .ok w => ({ p with signet := some g }, .ok (key, { value := w }))

/-- core-wire.go:366-396 `makeAndEncapsulateNewKeys`. -/
def encapAll (P : Prims) (rng : Rng) (s : Session) : Nat → List KePair → List KePair × Res (List (Bytes × Seal))
  | _, [] => ([], .ok [])
  | ctr, p :: ps =>
    match encapOne P rng s ctr p with
    | (p, .error e) => (p :: ps, .error e)
    | (p, .ok k) => (p :: (encapAll P rng s (ctr + 1) ps).1, (encapAll P rng s (ctr + 1) ps).2.map (fun l => k :: l))

/-- core-wire.go:400-415 one pair. -/
def unwrapOne (P : Prims) (p : KePair) : Res Bytes :=
  match p.signet, p.sl with
  | some g, some sl => unwrapKey P p.tool sl.value g
  | _, _ => .error .missing

/-- core-wire.go:398-420 `unwrapKeys`. -/
def unwrapAll (P : Prims) : List KePair → Res (List Bytes)
  | [] => .ok []
  | p :: ps => do
    let k ← unwrapOne P p
    let rest ← unwrapAll P ps
    .ok (k :: rest)

/-- core-wire.go:422-455 `burnEphemeralKeys`. None of the tools returns an error from `BurnKey` (x25519.go:126, nist.go:157,
rsa-keys.go:107). -/
def Wire.burn (w : Wire) : Wire :=
  { w with kx := w.kx.map (fun p => { p with signet := none, peer := none }),
           ke := w.ke.map (fun p => { p with signet := none, sl := none }), newMaterial := [] }

/-! ## Sending, core-wire.go:19-128 -/

/-- What the handshake adds to a letter. -/
structure SendOut where
  keys : List Seal := []
  material : List Bytes := []
  apply : Bool := false
  burn : Bool := false
  deriving DecidableEq, Repr

/-- core-wire.go:34-47. -/
def initiate (P : Prims) (rng : Rng) (w : Wire) (km : KM) : Wire × Res SendOut :=
  if w.msgNo = 0 ∨ (w.server = false ∧ w.reKeyNeeded = true) then
    match genKX P rng km.ctr w.kx with
    | (kx, .error e) => ({ w with kx := kx }, .error e)
    | (kx, .ok a) =>
      match genKE P rng (km.ctr + w.kx.length) w.ke with
      | (ke, .error e) => ({ w with kx := kx, ke := ke }, .error e)
      | (ke, .ok b) => ({ w with kx := kx, ke := ke, hs := .awaitKey }, .ok { keys := km.keys ++ a ++ b, material := km.material })
  else (w, .ok { keys := km.keys, material := km.material })

/-- core-wire.go:49-84. -/
def complete (P : Prims) (rng : Rng) (s : Session) (w : Wire) : Wire × Res SendOut :=
  match genKX P rng 1 w.kx with
  | (kx, .error e) => ({ w with kx := kx }, .error e)
  | (kx, .ok a) =>
    match sharedKeys P kx with
    | (kx, .error e) => ({ w with kx := kx }, .error e)
    | (kx, .ok shared) =>
      match genKE P rng (1 + w.kx.length) w.ke with
      | (ke, .error e) => ({ w with kx := kx, ke := ke }, .error e)
      | (ke, .ok b) =>
        match encapAll P rng s (1 + w.kx.length + w.ke.length) ke with
        | (ke, .error e) => ({ w with kx := kx, ke := ke }, .error e)
        | (ke, .ok c) =>
          ({ w with kx := kx, ke := ke, newMaterial := shared ++ c.map (·.1), hs := .awaitApply },
            .ok { keys := a ++ b ++ c.map (·.2), material := shared ++ c.map (·.1) })

/-- core-wire.go:24-90 the switch over the handshake state. -/
def sendSwitch (P : Prims) (cfg : Config) (rng : Rng) (s : Session) (w : Wire) (nonce : Bytes) : Wire × Res SendOut :=
  match w.hs with
  | .init =>
    match wSetupClosing P cfg rng s nonce w.kx w.ke with
    | (x, .error e) => ({ w with kx := x.kx, ke := x.ke }, .error e)
    | (x, .ok ()) => initiate P rng { w with kx := x.kx, ke := x.ke } x.km
  | .idle => initiate P rng w {}
  | .sendKey => complete P rng s w
  | .sendApply => (w, .ok { material := w.newMaterial, apply := true, burn := true })
  | .awaitKey | .awaitApply => (w, .ok {})

/-- core-wire.go:92-118, 218-244: adds the carryover key to the material, initializes the key derivation and derives the next
carryover key. The result is the new carryover key, the material, and the number of bytes read. (The new, zeroed carryover
key of the first message is not stored if this fails; it is made anew for the next first message.) -/
def ratchet (P : Prims) (s : Session) (k : ToolInst) (msgNo : Nat) (carry nonce : Bytes) (material : List Bytes) :
    Res (Bytes × List Bytes × Nat) :=
  if msgNo = 0 then
    if s.keySize = 0 then .error .config
    else if kdfInitOK nonce material then
      match kdfRead P k nonce material 0 s.keySize with
      | .error e => .error e
      | .ok c => .ok (c, material, s.keySize)
    else .error .config
  else if kdfInitOK nonce (material ++ [carry]) then
    match kdfRead P k nonce (material ++ [carry]) 0 carry.length with
    | .error e => .error e
    | .ok c => .ok (c, material ++ [carry], carry.length)
  else .error .config

/-- core-wire.go:109-127. -/
def Wire.sent (w : Wire) (c : Bytes) (burn : Bool) : Wire :=
  let w' := { w with sendCarry := c, recvCarry := if w.msgNo = 0 then c else w.recvCarry, msgNo := w.msgNo + 1 }
  if burn then w'.burn else w'

/-- What is left to do for a letter: the key material and the offset in the key stream. -/
structure Keyed where
  keys : List Seal
  apply : Bool
  material : List Bytes
  off : Nat
  deriving DecidableEq, Repr

/-- core-wire.go:19-128 `sendHandshakeAndInitKDF`. -/
def sendHandshake (P : Prims) (cfg : Config) (rng : Rng) (s : Session) (k : ToolInst) (w : Wire) (nonce : Bytes) :
    Wire × Res Keyed :=
  match sendSwitch P cfg rng s w nonce with
  | (w, .error e) => (w, .error e)
  | (w, .ok out) =>
    match ratchet P s k w.msgNo w.sendCarry nonce out.material with
    | .error e => (w, .error e)
    | .ok (c, material, off) => (w.sent c out.burn, .ok { keys := out.keys, apply := out.apply, material := material, off := off })

/-! ## Receiving, core-wire.go:130-271 -/

/-- core-wire.go:158-166, 195-203: assigns key `idx` and following to the key exchange pairs. -/
def assignKX (version : UInt8) (keys : List Seal) : Nat → List KxPair → List KxPair × Res Unit
  | _, [] => ([], .ok ())
  | i, p :: ps =>
    match keys[i]? with
    | none => (p :: ps, .error .panic)
    | some sl =>
      ({ p with peer := some { version := version, scheme := p.tool.info.name, key := sl.value, isPublic := true } } ::
        (assignKX version keys (i + 1) ps).1, (assignKX version keys (i + 1) ps).2)

/-- core-wire.go:168-171: the index of the next key without ID, if there is one. -/
def nextAnon (keys : List Seal) (i : Nat) : Option Nat := ((keys.drop i).findIdx? (fun sl => sl.id.isEmpty)).map (· + i)

/-- core-wire.go:167-179: assigns the keys without ID to the key encapsulation pairs. -/
def assignKE (version : UInt8) (keys : List Seal) : Nat → List KePair → List KePair × Res Unit
  | _, [] => ([], .ok ())
  | i, p :: ps =>
    match nextAnon keys i with
    | none => (p :: ps, .error .panic)
    | some j =>
      match keys[j]? with
      | none => (p :: ps, .error .panic)
      | some sl =>
        ({ p with signet := some { version := version, scheme := p.tool.info.name, key := sl.value, isPublic := true } } ::
          (assignKE version keys (j + 1) ps).1, (assignKE version keys (j + 1) ps).2)

/-- core-wire.go:204-207: assigns the seals to the key encapsulation pairs. -/
def assignSeals (keys : List Seal) : Nat → List KePair → List KePair × Res Unit
  | _, [] => ([], .ok ())
  | i, p :: ps =>
    match keys[i]? with
    | none => (p :: ps, .error .panic)
    | some sl => ({ p with sl := some sl } :: (assignSeals keys (i + 1) ps).1, (assignSeals keys (i + 1) ps).2)

/-- core-wire.go:143-183. -/
def recvOffer (s : Session) (w : Wire) (l : Letter) : Wire × Res Unit :=
  if l.keys.length = 0 then (w, .ok ())
  else if (s.queue .keyEncapsulation).isEmpty ∧ l.keys.length ≠ w.kx.length + w.ke.length then (w, .error .malformed)
  else
    match assignKX l.version l.keys 0 w.kx with
    | (kx, .error e) => ({ w with kx := kx }, .error e)
    | (kx, .ok ()) =>
      match assignKE l.version l.keys w.kx.length w.ke with
      | (ke, .error e) => ({ w with kx := kx, ke := ke }, .error e)
      | (ke, .ok ()) => ({ w with kx := kx, ke := ke, hs := .sendKey }, .ok ())

/-- core-wire.go:185-225. -/
def recvAnswer (P : Prims) (w : Wire) (l : Letter) : Wire × Res (List Bytes) :=
  if l.keys.length = 0 then (w, .ok [])
  else if l.keys.length ≠ w.kx.length + w.ke.length then (w, .error .malformed)
  else
    match assignKX l.version l.keys 0 w.kx with
    | (kx, .error e) => ({ w with kx := kx }, .error e)
    | (kx, .ok ()) =>
      match assignSeals l.keys w.kx.length w.ke with
      | (ke, .error e) => ({ w with kx := kx, ke := ke }, .error e)
      | (ke, .ok ()) =>
        match sharedKeys P kx with
        | (kx, .error e) => ({ w with kx := kx, ke := ke }, .error e)
        | (kx, .ok shared) =>
          match unwrapAll P ke with
          | .error e => ({ w with kx := kx, ke := ke }, .error e)
          | .ok keys => ({ w with kx := kx, ke := ke, newMaterial := shared ++ keys, hs := .sendApply }, .ok (shared ++ keys))

/-- core-wire.go:136-233 the switch over the handshake state: the key material, and whether to burn. -/
def recvSwitch (P : Prims) (cfg : Config) (s : Session) (w : Wire) (l : Letter) : Wire × Res (List Bytes × Bool) :=
  match w.hs with
  | .init =>
    match wSetupOpening P cfg s l w.kx w.ke with
    | (x, .error e) => ({ w with kx := x.kx, ke := x.ke }, .error e)
    | (x, .ok ()) =>
      match recvOffer s { w with kx := x.kx, ke := x.ke } l with
      | (w, .error e) => (w, .error e)
      | (w, .ok ()) => (w, .ok (x.om.material, false))
  | .idle =>
    match recvOffer s w l with
    | (w, .error e) => (w, .error e)
    | (w, .ok ()) => (w, .ok ([], false))
  | .awaitKey =>
    match recvAnswer P w l with
    | (w, .error e) => (w, .error e)
    | (w, .ok m) => (w, .ok (m, false))
  | .awaitApply => if l.applyKeys then (w, .ok (w.newMaterial, true)) else (w, .ok ([], false))
  | .sendKey | .sendApply => (w, .ok ([], false))

/-- core-wire.go:252-270. -/
def Wire.received (w : Wire) (c : Bytes) (burn : Bool) : Wire :=
  let w' := { w with recvCarry := c, sendCarry := if w.msgNo = 0 then c else w.sendCarry, msgNo := w.msgNo + 1 }
  if burn then w'.burn else w'

/-- core-wire.go:130-271 `recvHandshakeAndInitKDF`: the key material and the offset in the key stream. -/
def recvHandshake (P : Prims) (cfg : Config) (s : Session) (k : ToolInst) (w : Wire) (l : Letter) : Wire × Res (List Bytes × Nat) :=
  match recvSwitch P cfg s w l with
  | (w, .error e) => (w, .error e)
  | (w, .ok (m, burn)) =>
    match ratchet P s k w.msgNo w.recvCarry l.nonce m with
    | .error e => (w, .error e)
    | .ok (c, material, off) => (w.received c burn, .ok (material, off))

/-! ## Close and Open of a wire session -/

/-- core.go:14-20: only the first letter carries version and suite. -/
def wireHeader (s : Session) (w : Wire) (nonce : Bytes) : Letter :=
  if w.msgNo = 0 then { version := s.env.version, suiteID := s.env.suiteID, nonce := nonce } else { nonce := nonce }

/-- core.go:12-165 `Close` of a wire session. (Signing tools are excluded by `initWire`, the signature step is kept.) -/
def Session.wireClose (P : Prims) (cfg : Config) (rng : Rng) (s : Session) (st : SState) (w : Wire) (data : Bytes) :
    (SState × Wire) × Res Letter :=
  match randomBytes rng 0 s.nonceSize with
  | .error e => ((st, w), .error e)
  | .ok nonce =>
    match s.kdf with
    | none =>
      if !(s.queue .cipher).isEmpty || s.needsAD then ((st, w), .error .config)
      else (((signLetter P rng s st 1 [] { wireHeader s w nonce with data := data }).1, w),
            (signLetter P rng s st 1 [] { wireHeader s w nonce with data := data }).2)
    | some k =>
      match sendHandshake P cfg rng s k w nonce with
      | (w', .error e) => ((st, w'), .error e)
      | (w', .ok h) =>
        match encryptLetter P s st k h.material h.off { wireHeader s w nonce with keys := h.keys, applyKeys := h.apply } data with
        | (st, .error e) => ((st, w'), .error e)
        | (st, .ok l) => (((signLetter P rng s st 1 (s.adOf l) l).1, w'), (signLetter P rng s st 1 (s.adOf l) l).2)

/-- core.go:168-320 `Open` of a wire session. -/
def Session.wireOpen (P : Prims) (cfg : Config) (s : Session) (st : SState) (w : Wire) (l : Letter) : (SState × Wire) × Res Bytes :=
  match checkSignatures P s st l with
  | (st, .error e) => ((st, w), .error e)
  | (st, .ok ()) =>
    match s.kdf with
    | none => if !(s.queue .cipher).isEmpty || s.needsAD then ((st, w), .error .config) else ((st, w), .ok l.data)
    | some k =>
      match recvHandshake P cfg s k w l with
      | (w, .error e) => ((st, w), .error e)
      | (w, .ok (material, off)) =>
        (((decryptLetter P s st k material off l).1, w), (decryptLetter P s st k material off l).2)

end Jess
