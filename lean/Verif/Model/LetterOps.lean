import Verif.Model.Core

/-!
# Preparing envelopes and opening letters: `envelope.go`, `letter.go`
-/

namespace Jess

open Requirements

/-- The environment of an envelope: the trust store (truststore.go `GetSignet`; `none` is a nil trust store) and the
password callbacks (password.go:13-38). A callback may change the signet it gets. -/
structure World where
  store : Option (Bytes → Bool → Res Signet) := none
  getPw : Option (Signet → Res Signet) := none
  createPw : Option (Signet → Int → Res Signet) := none

/-- envelope.go:253-266: adds the name from the trust store, if the signet has none. -/
def nameFromStore (w : World) (s : Signet) : Signet :=
  if (match s.info with | none => true | some i => i.name.isEmpty) then
    match w.store with
    | some get =>
      if s.id.length > 0 then
        match get s.id false with
        | .ok n =>
          match n.info with
          | some ni =>
            match s.info with
            | none => { s with info := some ni }
            | some i => { s with info := some { i with name := ni.name } }
          | none => s
        | .error _ => s
      else s
    | none => s
  else s

/-- envelope.go:245-274 `fillPassword`. -/
def fillPassword (w : World) (s : Signet) (create : Bool) (level : Int) : Res Signet :=
  if create then
    match w.createPw with
    | none => .ok s
    | some cb => cb (nameFromStore w s) level
  else
    match w.getPw with
    | none => .ok s
    | some cb => cb (nameFromStore w s)

/-- envelope.go:220-238: protection and loading. -/
def finishPrep (P : Prims) (s : Signet) : Res Signet :=
  if s.protection then .error .unsupported
  else if s.scheme = schemeKey ∨ s.scheme = schemePassword then .ok s
  else s.load P

/-- envelope.go:197-218: fetches a referenced signet. -/
def fetchSignet (w : World) (recipients : Bool) (s : Signet) : Res Signet :=
  if s.id.length = 0 then .error .missing
  else
    match w.store with
    | none => .error .missing
    | some get =>
      match get s.id recipients with
      | .error e => .error e
      | .ok n => if s.scheme ≠ [] ∧ s.scheme ≠ n.scheme then .error .malformed else .ok n

/-- envelope.go:181-243 `prepSignets`; the assignment `recipients = false` stays in effect for the following signets. -/
def prepSignets (P : Prims) (w : World) (level : Int) : Bool → List Signet → Res (List Signet)
  | _, [] => .ok []
  | recipients, s :: ss =>
    if s.key.length = 0 then
      if s.scheme = schemePassword then do
        let s ← fillPassword w s (!recipients) level
        let rest ← prepSignets P w level recipients ss
        .ok (s :: rest)
      else do
        let recipients := if s.scheme = schemeKey then false else recipients
        let s ← fetchSignet w recipients s
        let s ← finishPrep P s
        let rest ← prepSignets P w level recipients ss
        .ok (s :: rest)
    else do
      let s ← finishPrep P s
      let rest ← prepSignets P w level recipients ss
      .ok (s :: rest)

/-- envelope.go:165-178 `PrepareSignets`. -/
def prepareSignets (P : Prims) (w : World) (level : Int) (e : Envelope) : Res Envelope := do
  let secrets ← prepSignets P w level e.opening e.secrets
  let senders ← prepSignets P w level e.opening e.senders
  let recipients ← prepSignets P w level (!e.opening) e.recipients
  .ok { e with secrets := secrets, senders := senders, recipients := recipients }

/-- envelope.go:105-115 `LoadSuite`. -/
def loadSuite (reg : List Suite) (e : Envelope) : Res (Envelope × Suite) :=
  match e.suite with
  | some s => .ok (e, s)
  | none =>
    match getSuite reg e.suiteID with
    | none => .error .notFound
    | some s => .ok ({ e with suite := some s }, s)

/-- envelope.go:56-77 `initCorrespondence` (both branches of `verifying` do the same), i.e. `Correspondence`. -/
def correspondence (P : Prims) (cfg : Config) (w : World) (reg : List Suite) (e : Envelope) : Res Session := do
  let (e, suite) ← loadSuite reg e
  let e ← prepareSignets P w suite.securityLevel e
  newSession P cfg e

/-- letter.go:75-92: the stub for a key seal. -/
def stubOf (version : UInt8) (s : Seal) : Signet := { version := version, id := s.id, scheme := s.scheme }

/-- letter.go:78: whether a key seal refers to a secret. -/
def Seal.isSecret (s : Seal) : Bool := s.scheme == schemeKey || s.scheme == schemePassword

/-- letter.go:47-105 `Letter.Envelope`; `reqs = none` is a nil argument. -/
def Letter.envelope (reg : List Suite) (reqs : Option Requirements) (l : Letter) : Res Envelope :=
  if l.version = 0 then .error .version
  else if l.suiteID.length = 0 then .error .missing
  else
    match getSuite reg l.suiteID with
    | none => .error .notFound
    | some suite => do
      suite.provides.checkComplianceTo (reqs.getD full)
      .ok { version := l.version, suiteID := l.suiteID, suite := some suite,
            secrets := (l.keys.filter (fun s => !s.id.isEmpty && s.isSecret)).map (stubOf l.version),
            recipients := (l.keys.filter (fun s => !s.id.isEmpty && !s.isSecret)).map (stubOf l.version),
            senders := l.signatures.map (stubOf l.version),
            opening := true }

/-- letter.go:108-120 `Letter.Open`. -/
def Letter.open (P : Prims) (cfg : Config) (w : World) (reg : List Suite) (reqs : Option Requirements) (l : Letter) :
    Res Bytes := do
  let e ← l.envelope reg reqs
  let s ← correspondence P cfg w reg e
  (s.open P cfg s.initState l).2

/-- letter.go:123-135 `Letter.Verify`. -/
def Letter.verify (P : Prims) (cfg : Config) (w : World) (reg : List Suite) (reqs : Option Requirements) (l : Letter) :
    Res Unit := do
  let e ← l.envelope reg reqs
  let s ← correspondence P cfg w reg e
  (s.verify P s.initState l).2

end Jess
