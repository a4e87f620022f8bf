import Verif.Model.Memory
import Verif.Model.WireSession

/-! # Wire sessions on memory: what is shared with the caller

`Verif.Model.WireSession` takes byte strings by value. Here the carryover keys, the new key material, the keys of the peers and the data are
slices of a memory, as in the code. The local signets and the header of a letter that is made are the session's own and stay values. No suite
for wire sessions has key encapsulation tools; the pairs for them stay values. -/

namespace Jess

/-- session-wire.go:46-50 `kxPair`. `ref` is the memory of the `Key` of the peer as long as it may still be read: when the key is loaded,
`LoadKey` does not look at it any more (signet.go:168-172), and the pair holds the value. -/
structure MemKx where
  pair : KxPair
  ref : Option Slice := none
  deriving DecidableEq, Repr

/-- session-wire.go:29-43 `WireSession`. -/
structure MemWire where
  server : Bool := false
  msgNo : Nat := 0
  lastReKey : Nat := 0
  send : Option Slice := none
  recv : Option Slice := none
  kx : List MemKx := []
  ke : List KePair := []
  hs : HState := .init
  news : List Slice := []
  deriving DecidableEq, Repr

/-- A slice that may be nil. -/
def Heap.readOpt (h : Heap) : Option Slice → Bytes
  | none => []
  | some s => h.read s

/-- The pair as a value. -/
def MemKx.value (h : Heap) (p : MemKx) : KxPair :=
  match p.ref with
  | none => p.pair
  | some r => { p.pair with peer := p.pair.peer.map (fun q => { q with key := h.read r }) }

/-- The wire session as a value. -/
def MemWire.value (h : Heap) (m : MemWire) : Wire :=
  { server := m.server, msgNo := m.msgNo, lastReKey := m.lastReKey, sendCarry := h.readOpt m.send, recvCarry := h.readOpt m.recv,
    kx := m.kx.map (·.value h), ke := m.ke, hs := m.hs, newMaterial := m.news.map h.read }

/-- A letter that was received: `data` and the values of the keys are slices of the caller's memory (letter-wire.go:90-200 and the container
do not copy); these fields of the header are not used. -/
structure WireLetter where
  hdr : Letter
  data : Slice
  keys : List Slice
  deriving DecidableEq, Repr

/-- The letter as a value. -/
def WireLetter.value (h : Heap) (l : WireLetter) : Letter :=
  { l.hdr with data := h.read l.data, keys := List.zipWith (fun sl r => { sl with value := h.read r }) l.hdr.keys l.keys }

/-- signet.go:168-172: the key of the peer is not read any more. -/
def peerDone (p : KxPair) : Bool :=
  match p.peer with
  | none => true
  | some q => q.loadedPub.isSome

/-- The pairs with the memory of the peers' keys. -/
def holdRefs : List (Option Slice) → List KxPair → List MemKx
  | _, [] => []
  | rs, p :: ps => { pair := p, ref := if peerDone p then none else rs.head?.join } :: holdRefs rs.tail ps

/-- Takes over what a handshake step changed. -/
def MemWire.update (m : MemWire) (w : Wire) (refs : List (Option Slice)) (news : List Slice) : MemWire :=
  { m with kx := holdRefs refs w.kx, ke := w.ke, hs := w.hs, news := news }

/-- core-wire.go:458-466 `copyKeyMaterial`. -/
def copyMaterial : Heap → List Bytes → Heap × List Slice
  | h, [] => (h, [])
  | h, d :: ds => ((copyMaterial (h.alloc d).1 ds).1, (h.alloc d).2 :: (copyMaterial (h.alloc d).1 ds).2)

/-- core-wire.go:422-455 `burnEphemeralKeys`: overwrites the new key material; the signets are dropped (their `BurnKey` changes only their
own memory). -/
def memBurn (h : Heap) (m : MemWire) : Heap × MemWire :=
  (m.news.foldl (fun h s => h.write s (List.replicate s.len 255)) h,
   { m with kx := m.kx.map (fun p => { pair := { p.pair with signet := none, peer := none } }),
            ke := m.ke.map (fun p => { p with signet := none, sl := none }), news := [] })

/-! ## Sending -/

/-- core-wire.go:24-90 the switch over the handshake state, on what is in memory now; the new key material is copied (82). -/
def memSendSwitch (P : Prims) (cfg : Config) (rng : Rng) (s : Session) (h : Heap) (m : MemWire) (nonce : Bytes) :
    Heap × MemWire × Res SendOut :=
  match sendSwitch P cfg rng s (m.value h) nonce with
  | (w, .error e) => (h, m.update w (m.kx.map (·.ref)) m.news, .error e)
  | (w, .ok out) =>
    if m.hs = .sendKey then
      ((copyMaterial h w.newMaterial).1, m.update w (m.kx.map (·.ref)) (copyMaterial h w.newMaterial).2, .ok out)
    else (h, m.update w (m.kx.map (·.ref)) m.news, .ok out)

/-- core-wire.go:92-118, 218-244: makes the carryover key (first message) or adds it to the material, initializes the key derivation and
writes the next carryover key over it. -/
def memRatchet (P : Prims) (s : Session) (k : ToolInst) (h : Heap) (msgNo : Nat) (carry : Option Slice) (nonce : Bytes)
    (material : List Bytes) : Heap × Res (Option Slice × List Bytes × Nat) :=
  if msgNo = 0 then
    if s.keySize = 0 then (h, .error .config)
    else if kdfInitOK nonce material then
      match kdfRead P k nonce material 0 s.keySize with
      | .error e => (h, .error e)
      | .ok c =>
        ((h.alloc (List.replicate s.keySize 0)).1.write (h.alloc (List.replicate s.keySize 0)).2 c,
          .ok (some (h.alloc (List.replicate s.keySize 0)).2, material, s.keySize))
    else (h, .error .config)
  else if kdfInitOK nonce (material ++ [h.readOpt carry]) then
    match kdfRead P k nonce (material ++ [h.readOpt carry]) 0 (h.readOpt carry).length with
    | .error e => (h, .error e)
    | .ok c =>
      match carry with
      | none => (h, .ok (none, material ++ [[]], 0))
      | some x => (h.write x c, .ok (some x, material ++ [h.read x], (h.read x).length))
  else (h, .error .config)

/-- core-wire.go:109-127: a copy of the first carryover key for the other direction. -/
def memSent (h : Heap) (m : MemWire) (c : Option Slice) (burn : Bool) : Heap × MemWire :=
  let a := if m.msgNo = 0 then ((h.alloc (h.readOpt c)).1, some (h.alloc (h.readOpt c)).2) else (h, m.recv)
  let m' := { m with send := c, recv := a.2, msgNo := m.msgNo + 1 }
  if burn then memBurn a.1 m' else (a.1, m')

/-- core-wire.go:19-128 `sendHandshakeAndInitKDF`. -/
def memSendHandshake (P : Prims) (cfg : Config) (rng : Rng) (s : Session) (k : ToolInst) (h : Heap) (m : MemWire) (nonce : Bytes) :
    Heap × MemWire × Res Keyed :=
  match memSendSwitch P cfg rng s h m nonce with
  | (h, m, .error e) => (h, m, .error e)
  | (h, m, .ok out) =>
    match memRatchet P s k h m.msgNo m.send nonce out.material with
    | (h, .error e) => (h, m, .error e)
    | (h, .ok (c, material, off)) =>
      ((memSent h m c out.burn).1, (memSent h m c out.burn).2, .ok { keys := out.keys, apply := out.apply, material := material, off := off })

/-! ## Receiving -/

/-- core-wire.go:143-183: the peers' keys are the letter's (160-165). -/
def memOffer (s : Session) (h : Heap) (m : MemWire) (l : WireLetter) : MemWire × Res Unit :=
  match recvOffer s (m.value h) (l.value h) with
  | (w, r) =>
    if (l.value h).keys.length = 0 ∨ ((s.queue .keyEncapsulation).isEmpty ∧ (l.value h).keys.length ≠ m.kx.length + m.ke.length) then
      (m.update w (m.kx.map (·.ref)) m.news, r)
    else (m.update w (l.keys.map some) m.news, r)

/-- core-wire.go:185-225: as above; the keys are loaded at once, and the new key material is copied (211). -/
def memAnswer (P : Prims) (h : Heap) (m : MemWire) (l : WireLetter) : Heap × MemWire × Res (List Bytes) :=
  match recvAnswer P (m.value h) (l.value h) with
  | (w, r) =>
    if (l.value h).keys.length = 0 ∨ (l.value h).keys.length ≠ m.kx.length + m.ke.length then
      (h, m.update w (m.kx.map (·.ref)) m.news, r)
    else
      match r with
      | .error e => (h, m.update w (l.keys.map some) m.news, .error e)
      | .ok x => ((copyMaterial h w.newMaterial).1, m.update w (l.keys.map some) (copyMaterial h w.newMaterial).2, .ok x)

/-- core-wire.go:136-233 the switch over the handshake state. -/
def memRecvSwitch (P : Prims) (cfg : Config) (s : Session) (h : Heap) (m : MemWire) (l : WireLetter) :
    Heap × MemWire × Res (List Bytes × Bool) :=
  match m.hs with
  | .init =>
    match wSetupOpening P cfg s (l.value h) (m.value h).kx (m.value h).ke with
    | (x, .error e) => (h, m.update { m.value h with kx := x.kx, ke := x.ke } (m.kx.map (·.ref)) m.news, .error e)
    | (x, .ok ()) =>
      match memOffer s h (m.update { m.value h with kx := x.kx, ke := x.ke } (m.kx.map (·.ref)) m.news) l with
      | (m, .error e) => (h, m, .error e)
      | (m, .ok ()) => (h, m, .ok (x.om.material, false))
  | .idle =>
    match memOffer s h m l with
    | (m, .error e) => (h, m, .error e)
    | (m, .ok ()) => (h, m, .ok ([], false))
  | .awaitKey =>
    match memAnswer P h m l with
    | (h, m, .error e) => (h, m, .error e)
    | (h, m, .ok x) => (h, m, .ok (x, false))
  | .awaitApply => if l.hdr.applyKeys then (h, m, .ok (m.news.map h.read, true)) else (h, m, .ok ([], false))
  | .sendKey | .sendApply => (h, m, .ok ([], false))

/-- core-wire.go:252-270. -/
def memReceived (h : Heap) (m : MemWire) (c : Option Slice) (burn : Bool) : Heap × MemWire :=
  let a := if m.msgNo = 0 then ((h.alloc (h.readOpt c)).1, some (h.alloc (h.readOpt c)).2) else (h, m.send)
  let m' := { m with recv := c, send := a.2, msgNo := m.msgNo + 1 }
  if burn then memBurn a.1 m' else (a.1, m')

/-- core-wire.go:130-271 `recvHandshakeAndInitKDF`. -/
def memRecvHandshake (P : Prims) (cfg : Config) (s : Session) (k : ToolInst) (h : Heap) (m : MemWire) (l : WireLetter) :
    Heap × MemWire × Res (List Bytes × Nat) :=
  match memRecvSwitch P cfg s h m l with
  | (h, m, .error e) => (h, m, .error e)
  | (h, m, .ok (x, burn)) =>
    match memRatchet P s k h m.msgNo m.recv l.hdr.nonce x with
    | (h, .error e) => (h, m, .error e)
    | (h, .ok (c, material, off)) => ((memReceived h m c burn).1, (memReceived h m c burn).2, .ok (material, off))

/-! ## Close and Open -/

/-- core.go:68-117 with the deferred reset, from a place in the key stream. -/
def memEncryptAt (P : Prims) (s : Session) (st : SState) (k : ToolInst) (material : List Bytes) (off : Nat) (l : Letter) (h : Heap)
    (data : Slice) : Heap × SState × Res MemLetter :=
  match setupTools P s k l.nonce material off s.stateful st.tools with
  | (tools, .error e) => (h, { st with tools := tools }, .error e)
  | (tools, .ok ()) =>
    match memProtect P s tools l h data with
    | (h, r) => (h, { st with tools := s.resetTools tools }, r)

/-- core.go:270-319 with the deferred reset, from a place in the key stream. -/
def memDecryptAt (P : Prims) (s : Session) (st : SState) (k : ToolInst) (material : List Bytes) (off : Nat) (h : Heap) (m : MemLetter) :
    Heap × SState × Res Slice :=
  match setupTools P s k m.1.nonce material off s.stateful st.tools with
  | (tools, .error e) => (h, { st with tools := tools }, .error e)
  | (tools, .ok ()) =>
    match memUnprotect P s tools h m with
    | (h, r) => (h, { st with tools := s.resetTools tools }, r)

/-- core.go:32-165 `Close` of a wire session, after the copy of the data. -/
def memWireCloseCopied (P : Prims) (cfg : Config) (rng : Rng) (s : Session) (st : SState) (h : Heap) (m : MemWire) (data : Slice) :
    Heap × (SState × MemWire) × Res MemLetter :=
  match randomBytes rng 0 s.nonceSize with
  | .error e => (h, (st, m), .error e)
  | .ok nonce =>
    match s.kdf with
    | none =>
      if !(s.queue .cipher).isEmpty || s.needsAD then (h, (st, m), .error .config)
      else (h, ((memSign P rng s st 1 [] h (wireHeader s (m.value h) nonce, data)).1, m),
        (memSign P rng s st 1 [] h (wireHeader s (m.value h) nonce, data)).2)
    | some k =>
      match memSendHandshake P cfg rng s k h m nonce with
      | (h', m', .error e) => (h', (st, m'), .error e)
      | (h', m', .ok x) =>
        match memEncryptAt P s st k x.material x.off { wireHeader s (m.value h) nonce with keys := x.keys, applyKeys := x.apply } h' data with
        | (h', st, .error e) => (h', (st, m'), .error e)
        | (h', st, .ok l) => (h', ((memSign P rng s st 1 (s.adOf l.1) h' l).1, m'), (memSign P rng s st 1 (s.adOf l.1) h' l).2)

/-- core.go:12-165 `Close` of a wire session. -/
def memWireClose (P : Prims) (cfg : Config) (rng : Rng) (s : Session) (st : SState) (h : Heap) (m : MemWire) (data : Slice) :
    Heap × (SState × MemWire) × Res MemLetter :=
  memWireCloseCopied P cfg rng s st (memCopy h data).1 m (memCopy h data).2

/-- core.go:168-320 `Open` of a wire session. -/
def memWireOpen (P : Prims) (cfg : Config) (s : Session) (st : SState) (h : Heap) (m : MemWire) (l : WireLetter) :
    Heap × (SState × MemWire) × Res Slice :=
  match checkSignatures P s st (l.value h) with
  | (st, .error e) => (h, (st, m), .error e)
  | (st, .ok ()) =>
    match s.kdf with
    | none => if !(s.queue .cipher).isEmpty || s.needsAD then (h, (st, m), .error .config) else (h, (st, m), .ok l.data)
    | some k =>
      match memRecvHandshake P cfg s k h m l with
      | (h', m, .error e) => (h', (st, m), .error e)
      | (h', m, .ok (material, off)) =>
        match memDecryptAt P s st k material off h' ({ l.hdr with keys := (l.value h').keys }, l.data) with
        | (h', st, r) => (h', (st, m), r)

end Jess
