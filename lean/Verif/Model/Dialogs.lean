import Verif.Model.Stores
import Verif.Model.FileText

/-!
# The terminal dialogs: `jess manage`, `jess configure`

cmd/cmd-manage.go, cmd/cmd-configure.go, cmd/cfg-envelope.go, cmd/cfg-signet.go (`selectSignets`, `pickSignet`), cmd/format.go. A dialog shows
a list of lines; the user chooses lines by their position, or interrupts the dialog. What the program gets back from the prompt
library (survey) is the text of the chosen lines. The user's behaviour is an arbitrary list of choices; when the list ends, the dialog
is interrupted. Texts are byte strings (UTF-8; the byte 0xFF, which `text/tabwriter` treats specially, does not occur in UTF-8).
-/

namespace Jess

/-! ## Lines and words -/

/-- format.go:19-26: what is written to the tab writer: cells separated by tabs, rows separated by line feeds. -/
def tableText (t : List (List Bytes)) : Bytes := joinBytes [10] (t.map (joinBytes [9]))

/-- text/tabwriter (Go standard library): the cells of a line, each but the last padded with at least three spaces (`padding` is 3,
format.go:18); `pad j` is the number of further spaces after cell `j`. -/
def padCells (pad : Nat → Nat) : List Bytes → Bytes
  | [] => []
  | [x] => x
  | x :: y :: xs => x ++ List.replicate (3 + pad 0) 32 ++ padCells (fun j => pad (j + 1)) (y :: xs)

/-- The formatted lines: numbered from `i`. -/
def padLines (pad : Nat → Nat → Nat) : Nat → List (List Bytes) → List Bytes
  | _, [] => []
  | i, l :: ls => padCells (pad i) l :: padLines pad (i + 1) ls

/-- text/tabwriter: lines end with a line feed or form feed, cells with a (vertical) tab. -/
def tabWrite (pad : Nat → Nat → Nat) (text : Bytes) : Bytes :=
  joinBytes [10] (padLines pad 0 ((splitBytes (fun c => c == 10 || c == 12) text).map (splitBytes (fun c => c == 9 || c == 11))))

/-- Go standard library, `bufio.ScanLines`: removes the line end. -/
def scannedLine (l : Bytes) : Bytes := trimSuffix (trimSuffix l [10]) [13]

/-- format.go:15-40 `formatColumns`: no lines, if a line is too long for the scanner. The width of the columns is given by `pad`. -/
def formatColumns (pad : List (List Bytes) → Nat → Nat → Nat) (t : List (List Bytes)) : List Bytes :=
  match scanLines (tabWrite (pad t) (tableText t)) with
  | .error _ => []
  | .ok ls => ls.map scannedLine

/-- The number of bytes of the white space character at the beginning. -/
def spaceLen (s : Bytes) : Nat :=
  match spaceCodes.find? (fun c => hasPrefix s c) with
  | none => 0
  | some c => c.length

/-- The bytes that are not part of a white space character; the first `n` bytes belong to one. -/
def spaceMarks : Nat → Bytes → List (Option UInt8)
  | _, [] => []
  | n + 1, _ :: t => none :: spaceMarks n t
  | 0, a :: t =>
    match spaceLen (a :: t) with
    | 0 => some a :: spaceMarks 0 t
    | k + 1 => none :: spaceMarks k t

/-- A word, unless it is empty, in front of other words. -/
def consWord (w : Bytes) (ws : List Bytes) : List Bytes := if w = [] then ws else w :: ws

/-- The word at the very beginning (empty, if there is none) and the other words. -/
def markWords : List (Option UInt8) → Bytes × List Bytes
  | [] => ([], [])
  | none :: t => ([], consWord (markWords t).1 (markWords t).2)
  | some a :: t => (a :: (markWords t).1, (markWords t).2)

/-- Go standard library, `strings.Fields`. -/
def fields (s : Bytes) : List Bytes := consWord (markWords (spaceMarks 0 s)).1 (markWords (spaceMarks 0 s)).2

/-! ## Texts -/

/-- fmt `%d`. -/
def decimal (n : Int) : Bytes :=
  (if n < 0 then [45] else []) ++ (if n = 0 then [48] else (toDigits 10 n.natAbs).map (fun d => UInt8.ofNat (48 + d)))

/-- format.go:42-44 `formatSecurityLevel`. -/
def formatSecurityLevel (n : Int) : Bytes := decimal n ++ b!" b/s"

/-- format.go:56-65 `formatSignetName`. -/
def formatSignetName (s : Signet) : Bytes :=
  match s.info with
  | some i => if i.name ≠ [] then i.name else if s.id ≠ [] then s.id else b!"[unknown]"
  | none => if s.id ≠ [] then s.id else b!"[unknown]"

/-- format.go:67-78 `formatSignetType`. -/
def formatSignetType (s : Signet) : Bytes :=
  if s.scheme = schemeKey then b!"key" else if s.scheme = schemePassword then b!"password"
  else if s.isPublic then b!"recipient" else b!"signet"

/-- format.go:80-87 `formatSignetScheme`. -/
def formatSignetScheme (s : Signet) : Bytes := if s.scheme = schemeKey ∨ s.scheme = schemePassword then [] else s.scheme

/-- tools/tool.go:141-162 `FormatPurpose`. -/
def formatPurpose : Purpose → Bytes
  | .keyDerivation => b!"KeyDerivation"
  | .passDerivation => b!"PassDerivation"
  | .keyExchange => b!"KeyExchange"
  | .keyEncapsulation => b!"KeyEncapsulation"
  | .signing => b!"Signing"
  | .integratedCipher => b!"IntegratedCipher"
  | .cipher => b!"Cipher"
  | .mac => b!"MAC"

/-- format.go:89-100 `formatSignetPurpose`; signet.go:190-213 `Tool`. -/
def formatSignetPurpose (s : Signet) : Bytes :=
  if s.scheme = schemeKey ∨ s.scheme = schemePassword then []
  else
    match getTool s.scheme with
    | none => b!"[unknown]"
    | some t => formatPurpose t.purpose

/-- format.go:102-122 `formatSignetSecurityLevel`. -/
def formatSignetSecurityLevel (P : Prims) (s : Signet) : Bytes :=
  if s.scheme = schemeKey ∨ s.scheme = schemePassword then []
  else
    match getTool s.scheme with
    | none => b!"[fail]"
    | some t =>
      match ({ info := t, hash := none } : ToolInst).secLevel P (some s) with
      | .error .unsupported => b!"[protected]"
      | .error _ => b!"[fail]"
      | .ok n => formatSecurityLevel n

/-- requirements.go:90-105 `Requirements.String`. -/
def requirementNames (r : Requirements) : Bytes :=
  joinBytes b!", " (r.filterMap (fun a =>
    if a = Confidentiality then some b!"Confidentiality" else if a = Integrity then some b!"Integrity"
    else if a = RecipientAuthentication then some b!"RecipientAuthentication"
    else if a = SenderAuthentication then some b!"SenderAuthentication" else none))

/-- format.go:124-129 `formatRequirements`. -/
def formatRequirements (r : Requirements) : Bytes := if r.isEmpty then b!"none (unsafe)" else requirementNames r

/-- format.go:131-137 `formatSignetNames`. -/
def formatSignetNames (l : List Signet) : Bytes := joinBytes b!", " (l.map formatSignetName)

/-- format.go:139-151 `formatEnvelopeSignets`. -/
def formatEnvelopeSignets (e : Envelope) : Bytes :=
  joinBytes b!", " ((if e.secrets.isEmpty then [] else [b!"Secrets: " ++ formatSignetNames e.secrets]) ++
    (if e.recipients.isEmpty then [] else [b!"To: " ++ formatSignetNames e.recipients]) ++
    (if e.senders.isEmpty then [] else [b!"From: " ++ formatSignetNames e.senders]))

/-- format.go:153-162 `formatSuiteStatus`; suite.go:3-8. -/
def formatSuiteStatus (s : Suite) : Bytes :=
  if s.status = 0 then b!"DEPRECATED" else if s.status = 2 then b!"recommended" else []

/-! ## Choosing signets -/

/-- The trust store of the dialogs (truststores/extended.go:13-40). `getEnvelope` tells "not found"
(`ErrEnvelopeNotFound`) from other failures. -/
structure Trust (σ : Type) where
  select : σ → UInt8 → List Bytes → Res (List Signet)
  getSignet : σ → Bytes → Bool → Res Signet
  deleteSignet : σ → Bytes → Bool → σ × Res Unit
  getEnvelope : σ → Bytes → Res (Option Envelope)
  storeEnvelope : σ → Envelope → σ × Res Unit
  deleteEnvelope : σ → Bytes → σ × Res Unit
  allEnvelopes : σ → Res (List Envelope)

/-- What the dialogs use besides the trust store: primitives, configuration, the registered suites, and the widths of columns. -/
structure DlgEnv where
  P : Prims
  cfg : Config
  reg : List Suite
  pad : List (List Bytes) → Nat → Nat → Nat

/-- cfg-signet.go:228-235, 250-257: the line for a signet. -/
def signetRow (P : Prims) (s : Signet) : List Bytes :=
  [formatSignetName s, formatSignetType s, formatSignetScheme s, formatSignetPurpose s, formatSignetSecurityLevel P s, s.id]

/-- cfg-signet.go:296-311: the signet for a chosen line: the first with the ID in the last word of the line. -/
def signetOfLine (options : List Signet) (line : Bytes) : Res (Option Signet) :=
  match (fields line).getLast? with
  | none => .error .panic
  | some id => .ok (options.find? (fun s => s.id == id))

/-- cfg-signet.go:219-315 `pickSignet` for one signet, with `doneMsg`. The row is the user's choice. -/
def pickOne (E : DlgEnv) (options : List Signet) (doneMsg : Bytes) (row : Option Nat) : Res (List Signet) :=
  match row.bind (fun i =>
    (formatColumns E.pad ((if doneMsg ≠ [] then [[doneMsg]] else []) ++ options.map (signetRow E.P)))[i]?) with
  | none => .error .env
  | some line =>
    if hasPrefix line (doneMsg ++ [32]) then .ok []
    else (signetOfLine options line).map Option.toList

/-- cfg-signet.go:226-258: the lines for several signets: the preselected ones, and the others. -/
def pickRows (P : Prims) (options pre : List Signet) : List (List Bytes) :=
  (pre ++ options.filter (fun s => !pre.any (fun p => s.id == p.id && s.isPublic == p.isPublic))).map (signetRow P)

/-- cfg-signet.go:292-312: the signets for the chosen lines. -/
def signetsOfLines (options : List Signet) : List Bytes → Res (List Signet)
  | [] => .ok []
  | l :: ls => do
    let o ← signetOfLine options l
    let r ← signetsOfLines options ls
    .ok (o.toList ++ r)

/-- cfg-signet.go:219-315 `pickSignet` for several signets. The rows are the user's choice; the answer is in the order of the lines. -/
def pickMany (E : DlgEnv) (options pre : List Signet) (rows : Option (Nat → Bool)) : Res (List Signet) :=
  let lines := formatColumns E.pad (pickRows E.P options pre)
  if lines.length < pre.length then .error .panic
  else
    match rows with
    | none => .error .env
    | some c =>
      if lines.isEmpty then .error .env
      else signetsOfLines (pre ++ options) ((lines.zipIdx.filter (fun p => c p.2)).map (·.1))

/-- cfg-signet.go:149-181: what signets are offered for. -/
inductive Scope where
  | pw | key | secrets | recipient | sender
  deriving DecidableEq, Repr

/-- cfg-signet.go:149-181: the schemes of a scope. -/
def Scope.schemes : Scope → List Bytes
  | .pw => [schemePassword]
  | .key => [schemeKey]
  | .secrets => [schemePassword, schemeKey]
  | .recipient => (toolTable.filter (fun t => t.purpose == .keyExchange || t.purpose == .keyEncapsulation)).map (·.name)
  | .sender => (toolTable.filter (fun t => t.purpose == .signing)).map (·.name)

/-- cfg-signet.go:148, 169; truststore.go:10-14: the filter of a scope. -/
def Scope.filter : Scope → UInt8
  | .recipient => 2
  | _ => 1

/-- cfg-signet.go:147, 159, 170, 178: the signets that are selected at the beginning. -/
def Scope.current (e : Envelope) : Scope → List Signet
  | .pw | .key => []
  | .secrets => e.secrets
  | .recipient => e.recipients
  | .sender => e.senders

/-- cfg-signet.go:206-214: puts the selected signets into the envelope. -/
def Scope.assign (e : Envelope) (l : List Signet) : Scope → Envelope
  | .pw | .key | .secrets => { e with secrets := l }
  | .recipient => { e with recipients := l }
  | .sender => { e with senders := l }

/-- cfg-signet.go:143-217 `selectSignets`: the envelope gets references (only an ID) to the selected signets. -/
def selectSignets {σ : Type} (E : DlgEnv) (T : Trust σ) (st : σ) (e : Envelope) (scope : Scope) (rows : Option (Nat → Bool)) :
    Res Envelope := do
  let candidates ← T.select st scope.filter scope.schemes
  if candidates.length = 0 then .error .missing
  else do
    let picked ← pickMany E candidates (scope.current e) rows
    .ok (scope.assign e (picked.map (fun s => { id := s.id })))

/-! ## `jess manage`: signets -/

/-- cmd-manage.go:56-106 `manageSignets`. A round is the chosen line and the chosen action (0: delete, 1: back to the list). -/
def manageSignets {σ : Type} (E : DlgEnv) (T : Trust σ) : List (Option Nat × Option Nat) → σ → σ × Res Unit
  | [], st => (st, .error .env)
  | (row, action) :: rounds, st =>
    match T.select st 0 [] with
    | .error x => (st, .error x)
    | .ok all =>
      match pickOne E all b!"Done" row with
      | .error x => (st, .error x)
      | .ok [] => (st, .ok ())
      | .ok (s :: _) =>
        match action with
        | some 0 =>
          match T.deleteSignet st s.id s.isPublic with
          | (st, .error x) => (st, .error x)
          | (st, .ok _) => manageSignets E T rounds st
        | some 1 => manageSignets E T rounds st
        | _ => (st, .error .env)

/-! ## Editing envelopes -/

/-- envelope.go:181-243, one pass of `prepSignets`, with its effects on the envelope: the signet afterwards (also if the pass fails), the
flag `recipients`, and the result. A password callback that fails does not change the signet (password.go:17-35). -/
def prepOneIn (P : Prims) (w : World) (level : Int) (recipients : Bool) (s : Signet) : Signet × Bool × Res Unit :=
  if s.key.length = 0 then
    if s.scheme = schemePassword then
      match fillPassword w s (!recipients) level with
      | .error x => (nameFromStore w s, recipients, .error x)
      | .ok s => (s, recipients, .ok ())
    else
      let recipients := if s.scheme = schemeKey then false else recipients
      match fetchSignet w recipients s with
      | .error x => (s, recipients, .error x)
      | .ok n =>
        match finishPrep P n with
        | .error x => (n, recipients, .error x)
        | .ok n => (n, recipients, .ok ())
  else
    match finishPrep P s with
    | .error x => (s, recipients, .error x)
    | .ok s => (s, recipients, .ok ())

/-- envelope.go:181-243 `prepSignets` with its effects on the list. -/
def prepIn (P : Prims) (w : World) (level : Int) : Bool → List Signet → List Signet × Res Unit
  | _, [] => ([], .ok ())
  | recipients, s :: ss =>
    match prepOneIn P w level recipients s with
    | (s, _, .error x) => (s :: ss, .error x)
    | (s, r, .ok _) => (s :: (prepIn P w level r ss).1, (prepIn P w level r ss).2)

/-- envelope.go:165-178 `PrepareSignets` with its effects on the envelope. -/
def prepareIn (P : Prims) (w : World) (level : Int) (e : Envelope) : Envelope × Res Unit :=
  match prepIn P w level e.opening e.secrets with
  | (l, .error x) => ({ e with secrets := l }, .error x)
  | (secrets, .ok _) =>
    match prepIn P w level e.opening e.senders with
    | (l, .error x) => ({ e with secrets := secrets, senders := l }, .error x)
    | (senders, .ok _) =>
      let r := prepIn P w level (!e.opening) e.recipients
      ({ e with secrets := secrets, senders := senders, recipients := r.1 }, r.2)

/-- envelope.go:56-77 `Correspondence` with its effects on the envelope. -/
def correspondenceIn (P : Prims) (cfg : Config) (w : World) (reg : List Suite) (e : Envelope) : Envelope × Res Session :=
  match loadSuite reg e with
  | .error x => (e, .error x)
  | .ok (e, suite) =>
    match prepareIn P w suite.securityLevel e with
    | (e, .error x) => (e, .error x)
    | (e, .ok _) => (e, newSession P cfg e)

/-- One round of the dialog: the answers to password prompts, the chosen line of the main menu, and the choices in the dialog that it
opens (for the list of suites, the first line that is chosen). -/
structure EditRound where
  createPw : Signet → Int → Res Signet
  row : Option Nat
  sub : Option (Nat → Bool)
  suiteRow : Option Nat

/-- How a round ends: the menu is shown again, or the dialog ends. -/
inductive Next (σ : Type) where
  | again (e : Envelope)
  | stop (st : σ) (r : Res Unit)

/-- cfg-envelope.go:76-84: the status. A status of 0 means invalid. -/
def editStatus {σ : Type} (E : DlgEnv) (T : Trust σ) (st : σ) (r : EditRound) (e : Envelope) : Envelope :=
  match correspondenceIn E.P E.cfg { store := some (T.getSignet st), createPw := some r.createPw } E.reg { e with securityLevel := 0 } with
  | (e, .error _) => e
  | (e, .ok s) => { e with securityLevel := s.level }

/-- cfg-envelope.go:90-103: the main menu. -/
def editMenu (e : Envelope) (suite : Suite) : List (List Bytes) :=
  [[b!"Done", b!"save and return"], [[]], [b!"Suite", e.suiteID], [[], b!"provides " ++ formatRequirements suite.provides],
   [[], b!"and " ++ formatSecurityLevel suite.securityLevel], [b!"Secrets", formatSignetNames e.secrets],
   [b!"Recipients", formatSignetNames e.recipients], [b!"Senders", formatSignetNames e.senders], [[]],
   [b!"Export", b!"export to text format"], [b!"Abort", b!"discard changes and return"], [b!"Delete", b!"delete and return"]]

/-- cfg-envelope.go:155-165: the list of suites. -/
def suiteRow (s : Suite) : List Bytes :=
  [s.id, b!"provides " ++ s.provides.shortString, formatSecurityLevel s.securityLevel, b!"uses " ++ joinBytes b!", " s.tools,
   formatSuiteStatus s]

/-- cfg-envelope.go:154-180 `editEnvelopeSuite`; envelope.go:117-121 `ReloadSuite`. -/
def editEnvelopeSuite (E : DlgEnv) (e : Envelope) (row : Option Nat) : Res Envelope :=
  match row.bind (fun i => (formatColumns E.pad (E.reg.map suiteRow))[i]?) with
  | none => .error .env
  | some line =>
    match fields line with
    | [] => .error .panic
    | id :: _ => (loadSuite E.reg { e with suiteID := id, suite := none }).map (·.1)

/-- The dialog goes on, or ends with the error. -/
def Next.ofRes {σ : Type} (st : σ) : Res Envelope → Next σ
  | .error x => .stop st (.error x)
  | .ok e => .again e

/-- cfg-envelope.go:111-150: the action for a chosen line. -/
def editAction {σ : Type} (E : DlgEnv) (T : Trust σ) (D : Dsd) (st : σ) (r : EditRound) (e : Envelope) (line : Bytes) : Next σ :=
  if hasPrefix line b!"Done" then
    if e.securityLevel = 0 then .again e
    else .stop (T.storeEnvelope st e.clean).1 (T.storeEnvelope st e.clean).2
  else if hasPrefix line b!"Export" then
    if e.securityLevel = 0 then .again e
    else
      match (e.clean.export D false).2 with
      | .error x => .stop st (.error x)
      | .ok _ => .again (e.clean.export D false).1
  else if hasPrefix line b!"Abort" then .stop st (.ok ())
  else if hasPrefix line b!"Delete" then .stop (T.deleteEnvelope st e.name).1 (T.deleteEnvelope st e.name).2
  else if hasPrefix line b!"Suite" then .ofRes st (editEnvelopeSuite E e r.suiteRow)
  else if hasPrefix line b!"Secrets" then .ofRes st (selectSignets E T st e .secrets r.sub)
  else if hasPrefix line b!"Recipients" then .ofRes st (selectSignets E T st e .recipient r.sub)
  else if hasPrefix line b!"Senders" then .ofRes st (selectSignets E T st e .sender r.sub)
  else .again e

/-- cfg-envelope.go:76-84: whether determining the status crashes. -/
def statusCrashes {σ : Type} (E : DlgEnv) (T : Trust σ) (st : σ) (r : EditRound) (e : Envelope) : Bool :=
  match (correspondenceIn E.P E.cfg { store := some (T.getSignet st), createPw := some r.createPw } E.reg { e with securityLevel := 0 }).2 with
  | .error .panic => true
  | _ => false

/-- cfg-envelope.go:74-150: one round. Without a suite, the menu cannot be built (nil pointer dereference). -/
def editRound {σ : Type} (E : DlgEnv) (T : Trust σ) (D : Dsd) (st : σ) (r : EditRound) (e : Envelope) : Next σ :=
  if statusCrashes E T st r e then .stop st (.error .panic)
  else match (editStatus E T st r e).suite with
  | none => .stop st (.error .panic)
  | some suite =>
    match r.row.bind (fun i => (formatColumns E.pad (editMenu (editStatus E T st r e) suite))[i]?) with
    | none => .stop st (.error .env)
    | some line => editAction E T D st r (editStatus E T st r e) line

/-- cfg-envelope.go:72-152 `editEnvelope`. -/
def editEnvelope {σ : Type} (E : DlgEnv) (T : Trust σ) (D : Dsd) : List EditRound → σ → Envelope → σ × Res Unit
  | [], st, _ => (st, .error .env)
  | r :: rs, st, e =>
    match editRound E T D st r e with
    | .stop st x => (st, x)
    | .again e => editEnvelope E T D rs st e

/-- cfg-envelope.go:25-33, 40-61: the presets: suite and dialogs. suites.go:5-18 -/
def presets : List (Bytes × List Scope) :=
  [(b!"pw_v1", [.pw]), (b!"key_v1", [.key]), (b!"v1", [.recipient, .sender]), (b!"rcpt_v1", [.recipient]), (b!"sign_v1", [.sender]),
   (b!"signfile_v1", [.sender])]

/-- The dialogs of a preset, one after the other. -/
def selectAll {σ : Type} (E : DlgEnv) (T : Trust σ) (st : σ) : List (Option (Nat → Bool)) → List Scope → Envelope → Res Envelope
  | _, [], e => .ok e
  | rows, s :: ss, e => do
    let e ← selectSignets E T st e s (rows.headD none)
    selectAll E T st rows.tail ss e

/-- cfg-envelope.go:13-70 `newEnvelope`: the preset and the choices of the user. -/
def newEnvelope {σ : Type} (E : DlgEnv) (T : Trust σ) (st : σ) (name : Bytes) (preset : Option Nat) (rows : List (Option (Nat → Bool))) :
    Res Envelope :=
  if trimSpace name = [] then .error .missing
  else
    match preset.bind (presets[·]?) with
    | none => .error .env
    | some (suiteID, scopes) => selectAll E T st rows scopes { version := 1, name := trimSpace name, suiteID := suiteID }

/-- cmd-configure.go:22-50: `jess configure`. -/
def configureCommand {σ : Type} (E : DlgEnv) (T : Trust σ) (D : Dsd) (st : σ) (args : List Bytes) (preset : Option Nat)
    (rows : List (Option (Nat → Bool))) (rounds : List EditRound) : σ × Res Unit :=
  match args with
  | [] => (st, .error .missing)
  | name :: _ =>
    if !playsNice name then (st, .error .malformed)
    else
      match T.getEnvelope st name with
      | .error x => (st, .error x)
      | .ok (some e) => editEnvelope E T D rounds st e
      | .ok none =>
        match newEnvelope E T st name preset rows with
        | .error x => (st, .error x)
        | .ok e => editEnvelope E T D rounds st e

/-- cmd-manage.go:119-129: the line for an envelope; `none`: the suite is not loaded (nil pointer dereference). -/
def envelopeRow (e : Envelope) : Option (List Bytes) :=
  e.suite.map (fun s => [e.name, e.suiteID,
    b!"provides " ++ s.provides.shortString ++ b!" and " ++ formatSecurityLevel s.securityLevel, formatEnvelopeSignets e])

/-- cmd-manage.go:108-157 `manageEnvelopes`. A round is the chosen line and the rounds of the dialog that it opens. -/
def manageEnvelopes {σ : Type} (E : DlgEnv) (T : Trust σ) (D : Dsd) : List (Option Nat × List EditRound) → σ → σ × Res Unit
  | [], st => (st, .error .env)
  | (row, edits) :: rounds, st =>
    match T.allEnvelopes st with
    | .error x => (st, .error x)
    | .ok all =>
      match all.mapM envelopeRow with
      | none => (st, .error .panic)
      | some table =>
        match row.bind (fun i => (formatColumns E.pad ([b!"Done"] :: table))[i]?) with
        | none => (st, .error .env)
        | some line =>
          if hasPrefix line b!"Done" then (st, .ok ())
          else
            match fields line with
            | [] => (st, .error .panic)
            | name :: _ =>
              match all.find? (fun e => e.name == name) with
              | none => manageEnvelopes E T D rounds st
              | some e =>
                match editEnvelope E T D edits st e with
                | (st, .error x) => (st, .error x)
                | (st, .ok _) => manageEnvelopes E T D rounds st

/-! ## The directory trust store -/

/-- truststores/dir.go as the trust store of the dialogs. `walk` gives the files below the storage directory in the order of the walk,
`w` tells how writing a file ends. -/
def dirTrust (S : DirStore) (D : Dsd) (reg : List Suite) (walk : FS → List Loc) (w : WriteEnd) : Trust FS where
  select := fun fs filter schemes => DirStore.select D fs (walk fs) filter schemes
  getSignet := fun fs id r => S.getSignet D fs id r
  deleteSignet := fun fs id r => S.deleteSignet fs id r
  getEnvelope := fun fs name =>
    if !playsNice name then .error .malformed
    else
      match fs.read (S.file (name ++ b!".envelope")) with
      | .error .notFound => .ok none
      | _ => (S.getEnvelope D reg fs name).map some
  storeEnvelope := fun fs e => S.storeEnvelope D fs w e
  deleteEnvelope := fun fs name => S.deleteEnvelope fs name
  allEnvelopes := fun fs => DirStore.allEnvelopes D reg fs (walk fs)

/-- keyring.go:50-160: the keyring trust store. It does not support lists (keyring.go:102-104, 146-148), and it does not load the suites of
envelopes. -/
def keyringTrust (P : Prims) (D : Dsd) : Trust Keyring where
  select := fun _ _ _ => .error .env
  getSignet := fun k id r => k.getSignet P D id r
  deleteSignet := fun k id r => k.deleteSignet id r
  getEnvelope := fun k name =>
    match k.getEnvelope D name with
    | .error .notFound => .ok none
    | r => r.map some
  storeEnvelope := fun k e => k.storeEnvelope D false e
  deleteEnvelope := fun k name => k.deleteEnvelope name
  allEnvelopes := fun _ => .error .env

end Jess
