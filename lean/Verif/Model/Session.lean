import Verif.Model.Prims

/-!
# Sessions: `session.go`, `envelope.go` (data types)
-/

namespace Jess

open Requirements

/-- envelope.go:13-40 `Envelope`. -/
structure Envelope where
  version : UInt8 := 1
  name : Bytes := []
  suiteID : Bytes := []
  suite : Option Suite := none
  secrets : List Signet := []
  senders : List Signet := []
  recipients : List Signet := []
  securityLevel : Int := 0
  opening : Bool := false
  deriving DecidableEq, Repr

/-- envelope.go:123-163 `LoopSecrets`/`LoopSenders`/`LoopRecipients`: the signets visited, in order. An empty scheme visits
all of them. -/
def ofScheme (l : List Signet) (scheme : Bytes) : List Signet :=
  l.filter (fun s => scheme.isEmpty || s.scheme == scheme)

/-- A tool instance of a session: the tool, the hash tool assigned in session.go:187-244. -/
structure ToolInst where
  info : ToolInfo
  hash : Option HashTool := none
  deriving DecidableEq, Repr

/-- session.go:14-44 `Session`. The queues (`kdf`, `ciphers`, …) are the sublists of `insts` by purpose, in suite order.
`wire` is kept separately (`Verif.Model.WireSession`). -/
structure Session where
  env : Envelope
  suite : Suite
  insts : List ToolInst
  reqs : Requirements
  level : Int
  maxLevel : Int
  keySize : Nat
  deriving DecidableEq, Repr

/-- The queue of the tools with the given purpose. -/
def Session.queue (s : Session) (p : Purpose) : List ToolInst := s.insts.filter (fun t => t.info.purpose = p)

/-- `s.kdf`, session.go:143-147. -/
def Session.kdf (s : Session) : Option ToolInst := (s.queue .keyDerivation).head?

/-- `s.passDerivator`, session.go:149-155. -/
def Session.passDerivator (s : Session) : Option ToolInst := (s.queue .passDerivation).head?

/-- The name of the hash tool of an instance (empty if it has none). -/
def ToolInst.hashName (t : ToolInst) : Bytes := match t.hash with | some h => h.name | none => []

/-- session.go:517-551 `checkSecurityLevel`. -/
def checkLevel (cfg : Config) (envLevel : Int) (lvl : Int) : Res Unit :=
  if cfg.minLevel > 0 then
    if lvl < cfg.minLevel then .error .level else .ok ()
  else if envLevel > 0 then
    if lvl < envLevel then .error .level else .ok ()
  else if lvl < cfg.defaultLevel then .error .level
  else .ok ()

/-- tools/gostdlib/rsa-keys.go:196-213 `getSecurityLevelByRSAKeySize`. -/
def rsaLevel (bits : Nat) : Int :=
  if bits ≥ 15360 then 256 else if bits ≥ 7680 then 192 else if bits ≥ 3072 then 128
  else if bits ≥ 2048 then 112 else if bits ≥ 1024 then 80 else if bits ≥ 512 then 56 else -1

/-- rsa-pss.go:26, rsa-oaep.go:27: the tools that embed `rsaBase`. -/
def ToolInfo.isRSA (t : ToolInfo) : Bool := t.name == b!"RSA-PSS" || t.name == b!"RSA-OAEP"

/-- tools/toollogic.go:184-197 `ToolLogicBase.SecurityLevel`. -/
def ToolInst.baseLevel (t : ToolInst) : Int :=
  match t.hash with
  | none => t.info.securityLevel
  | some h =>
    if t.info.securityLevel = 0 then h.securityLevel
    else if h.securityLevel < t.info.securityLevel then h.securityLevel
    else t.info.securityLevel

/-- rsa-keys.go:156-179 `rsaBase.SecurityLevel` for a signet. -/
def rsaSignetLevel (P : Prims) (s : Signet) : Res Int := do
  let l ← s.load P
  match l.loadedPub.bind P.rsaBits with
  | none => .error .invalidKey
  | some bits => if rsaLevel bits < 0 then .error .level else .ok (rsaLevel bits)

/-- `SecurityLevel` of a tool instance: rsa-keys.go:156-179 for the RSA tools, toollogic.go:184-197 otherwise. -/
def ToolInst.secLevel (P : Prims) (t : ToolInst) (s : Option Signet) : Res Int :=
  if t.info.isRSA then
    match s with
    | none => .ok 0
    | some s => rsaSignetLevel P s
  else .ok t.baseLevel

/-- session.go:447-461: the iteration count used to rate a password. -/
def pwIterations (tool : Bytes) : Nat :=
  if tool = b!"SCRYPT-20" then 2 ^ 20 else if tool = b!"PBKDF2-SHA2-256" then 20000 else 1

/-- session.go:432-479 the calculation part of `calcAndCheckSecurityLevel`. `t = none` is only used for key signets
(session.go:340), a nil tool with another signet would panic. -/
def calcLevel (P : Prims) (cfg : Config) (t : Option ToolInst) (s : Option Signet) : Res Int :=
  match s, t with
  | some s, t =>
    if s.scheme = schemeKey then .ok (8 * s.key.length)
    else
      match t with
      | none => .error .panic
      | some t =>
        if s.scheme = schemePassword then
          if s.key.length > 0 then
            if cfg.pwLevel s.key (pwIterations t.info.name) < 0 then .error .level
            else .ok (cfg.pwLevel s.key (pwIterations t.info.name))
          else .ok 0
        else t.secLevel P (some s)
  | none, some t => t.secLevel P none
  | none, none => .error .panic

/-- The security levels of a session under construction. -/
structure Levels where
  level : Int := 0
  max : Int := 0
  deriving DecidableEq, Repr

/-- session.go:481-512: checks a calculated level and adapts the session levels. -/
def applyLevel (cfg : Config) (envLevel : Int) (lv : Levels) (c : Int) : Res Levels :=
  if c = 0 then .ok lv
  else if c < 0 then .error .level
  else do
    checkLevel cfg envLevel c
    .ok { level := if lv.level = 0 ∨ c < lv.level then c else lv.level,
          max := if c > lv.max then c else lv.max }

/-- session.go:432-515 `calcAndCheckSecurityLevel`. -/
def calcAndCheck (P : Prims) (cfg : Config) (envLevel : Int) (lv : Levels) (t : Option ToolInst) (s : Option Signet) :
    Res Levels := do
  let c ← calcLevel P cfg t s
  applyLevel cfg envLevel lv c

/-- A loop with an early exit on error. -/
def foldRes {α β : Type} (f : β → α → Res β) : β → List α → Res β
  | b, [] => .ok b
  | b, a :: as =>
    match f b a with
    | .error e => .error e
    | .ok b' => foldRes f b' as

/-- session.go:142-182: what a tool of the given purpose adds to the session's requirements. -/
def addPurpose (r : Requirements) : Purpose → Requirements
  | .keyDerivation => r
  | .passDerivation => (r.add SenderAuthentication).add RecipientAuthentication
  | .keyExchange => r.add RecipientAuthentication
  | .keyEncapsulation => r.add RecipientAuthentication
  | .signing => (r.add Integrity).add SenderAuthentication
  | .integratedCipher => (r.add Confidentiality).add Integrity
  | .cipher => r.add Confidentiality
  | .mac => r.add Integrity

/-- session.go:188-236: resolves the hash tool argument. -/
def resolveHash (t : ToolInfo) (arg : Bytes) : Res (Option HashTool) :=
  if t.needsManagedHasher then
    if t.purpose = .mac ∨ t.purpose = .signing then
      match getHash arg with
      | some h => .ok (some h)
      | none => .error .notFound
    else .error .config
  else if t.needsDedicatedHasher then
    match getHash arg with
    | some h => .ok (some h)
    | none => .error .notFound
  else .ok none

/-- session.go:112-135, 188-236: parses a tool ID and creates the instance. -/
def makeInst (toolID : Bytes) : Res ToolInst :=
  match getTool (parseToolID toolID).1 with
  | none => .error .notFound
  | some t =>
    match resolveHash t (parseToolID toolID).2 with
    | .error e => .error e
    | .ok h => .ok { info := t, hash := h }

/-- The session under construction. -/
structure Build where
  insts : List ToolInst := []
  reqs : Requirements := []
  lv : Levels := {}
  keySize : Nat := 0
  requireLevel : Bool := false
  requireKeySize : Bool := false
  deriving DecidableEq, Repr

/-- session.go:143-153: at most one key derivation and one password derivation tool. -/
def purposeTaken (insts : List ToolInst) (p : Purpose) : Bool :=
  (p == .keyDerivation || p == .passDerivation) && insts.any (fun i => i.info.purpose == p)

/-- session.go:95-279 one pass of the tool init loop. -/
def stepTool (P : Prims) (cfg : Config) (e : Envelope) (allTools : List Bytes) (b : Build) (toolID : Bytes) : Res Build :=
  if allTools.count toolID > 1 then .error .config
  else do
    let i ← makeInst toolID
    if purposeTaken b.insts i.info.purpose then .error .config
    else do
      let lv ← calcAndCheck P cfg e.securityLevel b.lv (some i) none
      .ok { insts := b.insts ++ [i], reqs := addPurpose b.reqs i.info.purpose, lv := lv,
            keySize := if i.info.keySize > b.keySize then i.info.keySize else b.keySize,
            requireLevel := b.requireLevel || i.info.needsSecurityLevel,
            requireKeySize := b.requireKeySize || i.info.needsDefaultKeySize }

/-- session.go:291-319: the signets a tool uses, if it uses any. -/
def signetsFor (e : Envelope) (t : ToolInst) : Option (List Signet) :=
  match t.info.purpose with
  | .passDerivation => some (ofScheme e.secrets schemePassword)
  | .keyExchange | .keyEncapsulation => some (ofScheme e.recipients t.info.name)
  | .signing => some (ofScheme e.senders t.info.name)
  | _ => none

/-- session.go:285-331 one pass of the signet loop; the state is the levels and the number of signets seen. -/
def stepSignets (P : Prims) (cfg : Config) (e : Envelope) (st : Levels × Nat) (t : ToolInst) : Res (Levels × Nat) :=
  match signetsFor e t with
  | none => .ok st
  | some l =>
    match foldRes (fun lv s => calcAndCheck P cfg e.securityLevel lv (some t) (some s)) st.1 l with
    | .error e => .error e
    | .ok lv => if l.length = 0 then .error .config else .ok (lv, st.2 + l.length)

/-- session.go:333-344: the key secrets of the envelope. -/
def keySecrets (e : Envelope) : List Signet := ofScheme e.secrets schemeKey

/-- session.go:368-427: the final checks. -/
def finalChecks (cfg : Config) (s : Session) (seen : Nat) (keySource : Bool) : Res Unit :=
  if s.reqs.isEmpty then .error .requirements
  else do
    s.reqs.checkComplianceTo s.suite.provides
    if s.reqs.has RecipientAuthentication && !s.reqs.has Confidentiality then .error .requirements
    else if s.reqs.has Confidentiality && !s.reqs.has Integrity then .error .requirements
    else if s.kdf.isNone && decide ((s.queue .signing).length ≠ s.suite.tools.length) then .error .config
    else if (s.queue .integratedCipher).isEmpty && (s.queue .cipher).isEmpty && (s.queue .mac).isEmpty && s.kdf.isSome then
      .error .config
    else if !keySource && (s.reqs.has Integrity || s.reqs.has Confidentiality) then .error .config
    else if s.env.secrets.length + s.env.senders.length + s.env.recipients.length > seen then .error .config
    else checkLevel cfg s.env.securityLevel s.level

/-- session.go:350-366: manual minimums and their checks. -/
def applyMinimums (cfg : Config) (b : Build) (lv : Levels) : Res (Int × Nat) :=
  let level := if cfg.minLevel > 0 ∧ cfg.minLevel > lv.level then cfg.minLevel else lv.level
  let keySize := if cfg.minKeySize > 0 ∧ cfg.minKeySize > b.keySize then cfg.minKeySize else b.keySize
  if b.requireLevel ∧ level = 0 then .error .config
  else if b.requireKeySize ∧ keySize = 0 then .error .config
  else .ok (level, keySize)

/-- session.go:70-85: the level checks on envelope and suite. -/
def checkEnvelopeLevels (cfg : Config) (e : Envelope) (suite : Suite) : Res Unit := do
  if e.securityLevel > 0 then checkLevel cfg e.securityLevel e.securityLevel else .ok ()
  checkLevel cfg e.securityLevel suite.securityLevel

/-- session.go:335-336: key secrets add requirements. -/
def addKeyReqs (e : Envelope) (r : Requirements) : Requirements :=
  (keySecrets e).foldl (fun r _ => (r.add SenderAuthentication).add RecipientAuthentication) r

/-- session.go:298, 307, 315, 339: whether a key source was found. -/
def keySourceAvailable (e : Envelope) (insts : List ToolInst) : Bool :=
  insts.any (fun t => (signetsFor e t).isSome) || !(keySecrets e).isEmpty

/-- session.go:59-429 `newSession`. -/
def newSession (P : Prims) (cfg : Config) (e : Envelope) : Res Session :=
  match e.suite with
  | none => .error .config
  | some suite => do
    checkEnvelopeLevels cfg e suite
    let b ← foldRes (stepTool P cfg e suite.tools) {} suite.tools
    let (lv, seen) ← foldRes (stepSignets P cfg e) (b.lv, 0) b.insts
    let lv ← foldRes (fun lv s => calcAndCheck P cfg e.securityLevel lv none (some s)) lv (keySecrets e)
    let (level, keySize) ← applyMinimums cfg b lv
    let s : Session := { env := e, suite := suite, insts := b.insts, reqs := addKeyReqs e b.reqs, level := level,
                         maxLevel := lv.max, keySize := keySize }
    finalChecks cfg s (seen + (keySecrets e).length) (keySourceAvailable e b.insts)
    .ok s

/-- session.go:553-561 `NonceSize`. Go's integer division truncates towards zero; levels are not negative. -/
def Session.nonceSize (s : Session) : Nat := if s.maxLevel.toNat / 32 < 4 then 4 else s.maxLevel.toNat / 32

end Jess
