import Verif.Model.Json
import Verif.Model.CmdVerify
import Verif.Model.Stores

/-!
# The commands that read and write files: `jess close`, `jess open`, `jess sign`, `jess checksum`

cmd/cmd-close.go, cmd/cmd-open.go, cmd/cmd-sign.go, cmd/cmd-checksum.go. The trust store, the password prompts and the random source do not
change while a command runs. Paths are resolved as by the operating system (`resolve`); a slash at the end of a path is ignored.
-/

namespace Jess

/-- The questions which the commands ask. -/
inductive Question where
  | big (file : Bytes)
  | overwrite (file : Bytes)
  deriving DecidableEq, Repr

/-- The environment of the commands. -/
structure CmdEnv where
  E : SigEnv
  J : JsonLib
  /-- trust store and password prompts -/
  w : World
  rng : Rng
  /-- the header serializer of letter files -/
  hc : HeaderCodec
  /-- `GetEnvelope` of the trust store -/
  envelopes : Bytes → Res Envelope
  /-- the flag `--no`; `none`: not given -/
  reqs : Option Requirements
  /-- the flag `--metadata` -/
  metaFlag : List (Bytes × Bytes)
  cwd : Loc
  stdin : Res Bytes
  /-- the user's answers (an error: the prompt failed) -/
  answer : Question → Res Bool
  /-- how writing the output ends -/
  out : WriteEnd
  now : Nat

/-- What the commands change. -/
structure Disk where
  fs : FS
  stdout : Bytes

/-- Go standard library `os.Stat`: the size. (Directories count as small; a path below a file counts as missing.) -/
def FS.size (fs : FS) (l : Loc) : Res Nat :=
  match fs l with
  | none => .error .notFound
  | some .dir => .ok 0
  | some (.file d) => .ok d.length

/-- cmd/cmd-close.go:58-73, cmd/cmd-open.go:47-62 check the input file: whether to go on. -/
def checkInput (T : CmdEnv) (d : Disk) (file : Bytes) : Res Bool :=
  if file = stdInOut then .ok true
  else
    match d.fs.size (resolve T.cwd file) with
    | .error e => .error e
    | .ok n => if n > warnFileSize then T.answer (.big file) else .ok true

/-- cmd/cmd-close.go:74-88, cmd/cmd-open.go:63-77 check the output file: whether to go on. -/
def checkOutput (T : CmdEnv) (d : Disk) (file : Bytes) : Res Bool :=
  if file = stdInOut then .ok true
  else
    match d.fs (resolve T.cwd file) with
    | none => .ok true
    | some _ => T.answer (.overwrite file)

/-- cmd/cmd-close.go:90-99, cmd/cmd-open.go:79-88 load the input file. -/
def loadFile (T : CmdEnv) (d : Disk) (file : Bytes) : Res Bytes :=
  if file = stdInOut then T.stdin else d.fs.read (resolve T.cwd file)

/-- cmd/cmd-close.go:113-134, cmd/cmd-open.go:107-132 open the output file, truncating it, write, and close it. -/
def writeOutput (T : CmdEnv) (d : Disk) (file content : Bytes) : Disk × Res Unit :=
  if file = stdInOut then
    match T.out with
    | .done => ({ d with stdout := d.stdout ++ content }, .ok ())
    | .refused => (d, .error .env)
    | .stopped n => ({ d with stdout := d.stdout ++ content.take n }, .error .env)
  else
    ({ d with fs := (d.fs.write T.out (resolve T.cwd file) content).1 }, (d.fs.write T.out (resolve T.cwd file) content).2)

/-- cmd/cmd-close.go:49-57 the name of the output file. -/
def closeTarget (file flag : Bytes) : Res Bytes :=
  if flag = [] then
    if hasSuffix file letterExt then .error .missing else .ok (file ++ letterExt)
  else .ok flag

/-- cmd/cmd-open.go:38-46 the name of the output file. -/
def openTarget (file flag : Bytes) : Res Bytes :=
  if flag = [] then
    if hasSuffix file letterExt = false ∨ file.length < 8 then .error .missing else .ok (trimSuffix file letterExt)
  else .ok flag

/-- cmd/cmd-close.go:90-111 load, encrypt and serialize. -/
def closeData (T : CmdEnv) (d : Disk) (s : Session) (file : Bytes) : Res Bytes := do
  let data ← loadFile T d file
  let l ← (s.close T.E.P T.E.cfg T.rng s.initState data).2
  (l.toFileFormat T.hc).1

/-- cmd/cmd-close.go:37-111 everything before the output file is opened: the output file and the data; `none`: the user declined. -/
def closePlan (T : CmdEnv) (d : Disk) (file name flag : Bytes) : Res (Option (Bytes × Bytes)) := do
  let e ← T.envelopes name
  let s ← correspondence T.E.P T.E.cfg T.w suiteRegistry e
  let target ← closeTarget file flag
  let go ← checkInput T d file
  if go = false then .ok none
  else do
    let go ← checkOutput T d target
    if go = false then .ok none
    else do
      let c ← closeData T d s file
      .ok (some (target, c))

/-- Runs a plan: writes the output, if there is one. -/
def runPlan (T : CmdEnv) (d : Disk) (plan : Res (Option (Bytes × Bytes))) : Disk × Res Unit :=
  match plan with
  | .error e => (d, .error e)
  | .ok none => (d, .ok ())
  | .ok (some (target, content)) => writeOutput T d target content

/-- cmd/main.go:111-116 `requireTrustStore`. -/
def requireTrustStore (w : World) : Res Unit := match w.store with | none => .error .missing | some _ => .ok ()

/-- cmd/cmd-close.go:24-136 `jess close <file> with <envelope name>`; `flag` is the flag `--output`. -/
def closeCommand (T : CmdEnv) (d : Disk) (args : List Bytes) (flag : Bytes) : Disk × Res Unit :=
  match args with
  | [file, w, name] => runPlan T d (do
      requireTrustStore T.w
      if w ≠ b!"with" then .error .malformed else closePlan T d file name flag)
  | _ => (d, .error .malformed)

/-- cmd/cmd-open.go:79-105 load, parse and decrypt. -/
def openData (T : CmdEnv) (d : Disk) (file : Bytes) : Res Bytes := do
  let data ← loadFile T d file
  let (l, _) ← letterFromFileFormat T.hc data
  l.open T.E.P T.E.cfg T.w suiteRegistry (some (T.reqs.getD Requirements.full))

/-- cmd/cmd-open.go:38-105 everything before the output file is opened. -/
def openPlan (T : CmdEnv) (d : Disk) (file flag : Bytes) : Res (Option (Bytes × Bytes)) := do
  let target ← openTarget file flag
  let go ← checkInput T d file
  if go = false then .ok none
  else do
    let go ← checkOutput T d target
    if go = false then .ok none
    else do
      let c ← openData T d file
      .ok (some (target, c))

/-- cmd/cmd-open.go:26-134 `jess open <file>`. -/
def openCommand (T : CmdEnv) (d : Disk) (args : List Bytes) (flag : Bytes) : Disk × Res Unit :=
  match args with
  | [file] => runPlan T d (openPlan T d file flag)
  | _ => (d, .error .malformed)

/-- What hashing the data file reads: a file that can be opened, or standard input. -/
def hashInput (T : CmdEnv) (d : Disk) (file : Bytes) : Option ReadAll :=
  if file = stdInOut then
    match T.stdin with
    | .ok data => some { chunks := [data] }
    | .error _ => some { chunks := [], failed := true }
  else
    match d.fs (resolve T.cwd file) with
    | none => none
    | some .dir => some { chunks := [], failed := true }
    | some (.file data) => some { chunks := [data] }

/-- The state of the signature file. -/
def sigFileAt (fs : FS) (l : Loc) : SigFileState :=
  match fs l with
  | none => .missing
  | some .dir => .unreadable
  | some (.file d) => .content d

/-- cmd/cmd-sign.go:43-51 the name of the signature file. -/
def signTarget (file flag : Bytes) : Res Bytes :=
  if flag = [] then
    if hasSuffix file sigExt then .error .missing else .ok (file ++ sigExt)
  else .ok flag

/-- cmd/cmd-sign.go:37-53 and filesig/helpers.go:18-71 everything before the signature file is written. -/
def signPlan (T : CmdEnv) (d : Disk) (file name flag : Bytes) : Res (Bytes × Bytes) := do
  let e ← T.envelopes name
  let target ← signTarget file flag
  let (c, _) ← signFile T.E T.w T.rng T.now (hashInput T d file) (sigFileAt d.fs (resolve T.cwd target)) T.metaFlag e
  .ok (target, c)

/-- filesig/helpers.go:73-76 `os.WriteFile`, whatever the name. -/
def writeSigFile (T : CmdEnv) (d : Disk) (file content : Bytes) : Disk × Res Unit :=
  ({ d with fs := (d.fs.write T.out (resolve T.cwd file) content).1 }, (d.fs.write T.out (resolve T.cwd file) content).2)

/-- cmd/cmd-sign.go:24-61 `jess sign <file> with <envelope name>`, without what it prints at the end. -/
def signCommand (T : CmdEnv) (d : Disk) (args : List Bytes) (flag : Bytes) : Disk × Res Unit :=
  match args with
  | [file, w, name] =>
    match (do requireTrustStore T.w; if w ≠ b!"with" then .error .malformed else signPlan T d file name flag : Res (Bytes × Bytes)) with
    | .error e => (d, .error e)
    | .ok (target, c) => writeSigFile T d target c
  | _ => (d, .error .malformed)

/-- Go standard library `filepath.Ext`, on the reversed path: the part from the last dot of the last element. -/
def extRev : Bytes → Bytes → Bytes
  | [], _ => []
  | c :: cs, acc => if c = 47 then [] else if c = 46 then c :: acc else extRev cs (c :: acc)

/-- Go standard library `filepath.Ext`. -/
def pathExt (p : Bytes) : Bytes := extRev p.reverse []

/-- cmd/cmd-checksum.go:55-64 the new content of the file. -/
def checksumAdded (T : CmdEnv) (file data : Bytes) : Res Bytes :=
  if pathExt file = b!".json" then addJSONChecksum T.J T.E.H data
  else if pathExt file = b!".yml" ∨ pathExt file = b!".yaml" then addYAMLChecksum T.E.H data .afterComment
  else if pathExt file = b!".txt" then addTextChecksum T.E.H data b!"#" .afterComment
  else .error .unsupported

/-- cmd/cmd-checksum.go:43-81 `handleChecksumAdd`. -/
def checksumAdd (T : CmdEnv) (d : Disk) (args : List Bytes) : Disk × Res Unit :=
  match args with
  | [file] =>
    match (do let data ← d.fs.read (resolve T.cwd file); checksumAdded T file data : Res Bytes) with
    | .error e => (d, .error e)
    | .ok out => ({ d with fs := (d.fs.write T.out (resolve T.cwd file) out).1 }, (d.fs.write T.out (resolve T.cwd file) out).2)
  | _ => (d, .error .malformed)

/-- cmd/cmd-checksum.go:83-111 `handleChecksumVerify`. -/
def checksumVerify (T : CmdEnv) (d : Disk) (args : List Bytes) : Res Unit :=
  match args with
  | [file] => do
    let data ← d.fs.read (resolve T.cwd file)
    if pathExt file = b!".json" then verifyJSONChecksum T.J T.E.H data
    else if pathExt file = b!".yml" ∨ pathExt file = b!".yaml" then verifyYAMLChecksum T.E.H data
    else if pathExt file = b!".txt" then verifyTextChecksum T.E.H data b!"#"
    else .error .unsupported
  | _ => .error .malformed

end Jess
