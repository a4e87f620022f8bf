import Verif.Model.Report

/-! # The verify command: `cmd/cmd-verify.go`

The file system, standard input and the user's answers do not change while the command runs. What is printed about a path is modelled (without the numbers at the end). -/

namespace Jess

/-- What `os.Stat` returns, as far as it is used. -/
structure FileInfo where
  isDir : Bool
  size : Nat
  deriving DecidableEq, Repr

/-- A call of the function given to `filepath.Walk`: with a path, or with an error for a path. -/
inductive WalkEvent
  | path (p : Bytes)
  | failed (p : Bytes)
  deriving DecidableEq, Repr

/-- The environment of the command. -/
structure VerifyEnv where
  E : SigEnv
  w : World
  /-- the header serializer of letter files -/
  hc : HeaderCodec
  /-- the flag `--no`; `none`: not given -/
  reqs : Option Requirements
  /-- the flag `--metadata` -/
  metaFlag : List (Bytes × Bytes)
  /-- `filepath.Glob` -/
  glob : Bytes → Res (List Bytes)
  /-- `os.Stat`; `none`: error -/
  stat : Bytes → Option FileInfo
  /-- `filepath.Walk`: the calls of the function, which never returns an error, in order -/
  walk : Bytes → List WalkEvent
  /-- `os.ReadFile`; `none`: error -/
  read : Bytes → Option Bytes
  /-- what hashing a data file reads (standard input for `-`) -/
  source : Bytes → DataSource
  /-- standard input -/
  stdin : Option Bytes
  /-- the user's answer to the question about a big file -/
  confirm : Bytes → Res Bool
  /-- the texts of errors -/
  errText : Err → Bytes := fun _ => []

/-- cmd/main.go:15 `stdInOutFilename`. -/
def stdInOut : Bytes := b!"-"

/-- cmd/main.go:16 `letterFileExtension`. -/
def letterExt : Bytes := b!".letter"

/-- filesig/main.go:13 `Extension`. -/
def sigExt : Bytes := b!".sig"

/-- cmd/main.go:18 `warnFileSize`. -/
def warnFileSize : Nat := 12000000

/-- cmd/cmd-verify.go:203-207 the default requirements. -/
def verifyReqs (reqs : Option Requirements) : Requirements :=
  match reqs with
  | some r => r
  | none => (Requirements.full.remove Confidentiality).remove RecipientAuthentication

/-- cmd/cmd-verify.go:196-224 parse and verify a letter: who signed it. -/
def verifyLetterData (V : VerifyEnv) (data : Bytes) : Res (List Bytes) := do
  let (l, _) ← letterFromFileFormat V.hc data
  let _ ← l.verify V.E.P V.E.cfg V.w suiteRegistry (some (verifyReqs V.reqs))
  signerTexts V.w (l.signatures.map (·.id))

/-- cmd/cmd-verify.go:169-182 the question about big files: whether to go on. -/
def askBig (V : VerifyEnv) (filename : Bytes) : Res Bool :=
  if filename = stdInOut then .ok true
  else match V.stat filename with
    | none => .error .env
    | some i => if i.size > warnFileSize then V.confirm filename else .ok true

/-- cmd/cmd-verify.go:184-193 load the file. -/
def loadInput (V : VerifyEnv) (filename : Bytes) : Option Bytes :=
  if filename = stdInOut then V.stdin else V.read filename

/-- cmd/cmd-verify.go:226-234 what is printed about a letter, unless silent. -/
def letterReport (bulk : Bool) (signers : List Bytes) : Bytes :=
  if bulk then [] else b!"Verification: OK" ++ 10 :: b!"Signed By: " ++ joinBytes b!", " signers ++ [10]

/-- cmd/cmd-verify.go:164-236 `verifyLetter`: who signed the letter, and what is printed. -/
def verifyLetterFile (V : VerifyEnv) (bulk : Bool) (filename : Bytes) : Res (List Bytes × Bytes) :=
  if V.metaFlag ≠ [] then .error .unsupported
  else do
    let go ← askBig V filename
    if go = false then .ok ([], [])
    else match loadInput V filename with
      | none => .error .env
      | some data => do
        let signers ← verifyLetterData V data
        .ok (signers, letterReport bulk signers)

/-- cmd/cmd-verify.go:251-252 the IDs of the signatures. -/
def FileData.signerIDs (fd : FileData) : List Bytes :=
  match fd.signature with
  | some l => l.signatures.map (·.id)
  | none => []

/-- cmd/cmd-verify.go:238-262 `verifySig`: who signed the file (only in bulk mode), and what is printed. -/
def verifySigFile (V : VerifyEnv) (bulk : Bool) (filename signame : Bytes) : Res (List Bytes × Bytes) :=
  match verifyFile V.E V.w (V.source filename) (V.read signame) V.metaFlag with
  | (_, some e) => .error e
  | (fds, none) =>
    if bulk then do
      let signers ← signerTexts V.w (fds.flatMap FileData.signerIDs)
      .ok (signers, [])
    else do
      let report ← formatSignatures V.errText V.w filename signame fds
      .ok ([], report)

/-- cmd/cmd-verify.go:131-143 what `verify` does with a file which was not verified before. -/
def verifyKind (V : VerifyEnv) (bulk : Bool) (filename : Bytes) : Res (List Bytes × Bytes) :=
  if filename = stdInOut then verifyLetterFile V bulk filename
  else if hasSuffix filename letterExt then verifyLetterFile V bulk filename
  else verifySigFile V bulk (trimSuffix filename sigExt) (trimSuffix filename sigExt ++ sigExt)

/-- cmd/cmd-verify.go:137-138 the name under which a file is reported. -/
def shownName (filename : Bytes) : Bytes :=
  if filename = stdInOut then filename else if hasSuffix filename letterExt then filename else trimSuffix filename sigExt

/-- cmd/cmd-verify.go:145-149 the names remembered. -/
def remembered (filename : Bytes) : List Bytes :=
  if filename = stdInOut then [filename]
  else if hasSuffix filename letterExt then [filename]
  else [trimSuffix filename sigExt, trimSuffix filename sigExt ++ sigExt]

/-- cmd/cmd-verify.go:131-149 what `verify` does with a file which was not verified before: the error, and the names remembered. -/
def verifyFresh (V : VerifyEnv) (bulk : Bool) (filename : Bytes) : Res Unit × List Bytes :=
  ((verifyKind V bulk filename).map (fun _ => ()), remembered filename)

/-- cmd/cmd-verify.go:151-158 what is printed in bulk mode. -/
def bulkLine (V : VerifyEnv) (filename : Bytes) (r : Res (List Bytes × Bytes)) : Bytes :=
  match r with
  | .ok (signers, _) => b!"[ OK ] " ++ filename ++ b!" signed by " ++ joinBytes b!", " signers ++ [10]
  | .error e => b!"[FAIL] " ++ filename ++ b!" failed to verify: " ++ V.errText e ++ [10]

/-- cmd/cmd-verify.go:120-162 what is printed about a file; `none`: the program crashes. -/
def verifyPrints (V : VerifyEnv) (bulk : Bool) (memo : List Bytes) (filename : Bytes) : Option Bytes :=
  if filename ∈ memo then some []
  else
    match verifyKind V bulk filename with
    | .error .panic => none
    | r => some ((match r with | .ok (_, t) => t | .error _ => []) ++ if bulk then bulkLine V (shownName filename) r else [])

/-- cmd/cmd-verify.go:120-162 `verify`: the error and the new `verifiedSigs`. -/
def verifyPath (V : VerifyEnv) (bulk : Bool) (memo : List Bytes) (filename : Bytes) : Res Unit × List Bytes :=
  if filename ∈ memo then (.ok (), memo)
  else
    let r := verifyFresh V bulk filename
    (r.1, memo ++ r.2)

/-- The state of the bulk verification: `verifiedSigs`, `verificationFails`, `verificationWarnings`. -/
structure BulkState where
  memo : List Bytes := []
  fails : Nat := 0
  warnings : Nat := 0
  deriving DecidableEq, Repr

/-- cmd/cmd-verify.go:88-90, 103-105 verify and count. A panic ends the program. -/
def bulkVerify (V : VerifyEnv) (st : BulkState) (filename : Bytes) : Res BulkState :=
  match verifyPath V true st.memo filename with
  | (.error .panic, _) => .error .panic
  | (.error _, memo) => .ok { st with memo := memo, fails := st.fails + 1 }
  | (.ok _, memo) => .ok { st with memo := memo }

/-- cmd/cmd-verify.go:77-93 the function given to `filepath.Walk`. -/
def bulkEvent (V : VerifyEnv) (st : BulkState) : WalkEvent → Res BulkState
  | .failed _ => .ok { st with warnings := st.warnings + 1 }
  | .path p => if hasSuffix p sigExt || hasSuffix p letterExt then bulkVerify V st p else .ok st

/-- All calls of the function given to `filepath.Walk`. -/
def bulkWalk (V : VerifyEnv) : BulkState → List WalkEvent → Res BulkState
  | st, [] => .ok st
  | st, ev :: evs => do
    let st ← bulkEvent V st ev
    bulkWalk V st evs

/-- cmd/cmd-verify.go:66-106 one file of the list. -/
def bulkFile (V : VerifyEnv) (st : BulkState) (file : Bytes) : Res BulkState :=
  match V.stat file with
  | none => .ok { st with warnings := st.warnings + 1 }
  | some i => if i.isDir then bulkWalk V st (V.walk file) else bulkVerify V st file

/-- cmd/cmd-verify.go:66-106 the loop over the files. -/
def bulkFiles (V : VerifyEnv) : BulkState → List Bytes → Res BulkState
  | st, [] => .ok st
  | st, f :: fs => do
    let st ← bulkFile V st f
    bulkFiles V st fs

/-- cmd/cmd-verify.go:56-63 resolve the globs. -/
def globAll (V : VerifyEnv) : List Bytes → Res (List Bytes)
  | [] => .ok []
  | a :: args => do
    let ms ← V.glob a
    let rest ← globAll V args
    .ok (ms ++ rest)

/-- cmd/cmd-verify.go:108-116 the result of the bulk verification. -/
def bulkResult (st : BulkState) : Res Unit :=
  if st.fails > 0 then .error .signature
  else if st.warnings > 0 then .error .env
  else .ok ()

/-- cmd/cmd-verify.go:55-117 verify all files. -/
def verifyBulk (V : VerifyEnv) (args : List Bytes) : Res Unit := do
  let files ← globAll V args
  let st ← bulkFiles V {} files
  bulkResult st

/-- cmd/cmd-verify.go:31-117 the verify command. -/
def verifyCommand (V : VerifyEnv) (args : List Bytes) : Res Unit :=
  match args with
  | [a] => do
    let ms ← V.glob a
    match ms with
    | [] => .error .notFound
    | [m] =>
      match V.stat m with
      | none => .error .env
      | some i => if i.isDir then verifyBulk V args else (verifyPath V false [] m).1
    | _ => verifyBulk V args
  | _ => verifyBulk V args

/-! ## Walking a directory -/

/-- A file system tree, as `filepath.Walk` sees it. -/
inductive Tree
  /-- not a directory -/
  | file
  /-- a directory with the sorted names of its entries -/
  | dir (entries : List (Bytes × Tree))
  /-- a directory which can not be read -/
  | unreadable
  /-- an entry for which `os.Lstat` fails -/
  | lost

mutual
/-- path/filepath `walk` (standard library, trusted): the function is called for a directory (once, with the error if its entries can not
be read), then for its entries in lexical order.
`path` is the path of the tree, `base` the prefix of the paths of its entries (`filepath.Join` cleans the path of the root). -/
def walkTree (path base : Bytes) : Tree → List WalkEvent
  | .file => [.path path]
  | .lost => [.failed path]
  | .unreadable => [.failed path]
  | .dir es => .path path :: walkEntries base es

/-- The entries of a directory. -/
def walkEntries (base : Bytes) : List (Bytes × Tree) → List WalkEvent
  | [] => []
  | (n, t) :: es => walkTree (base ++ n) (base ++ n ++ b!"/") t ++ walkEntries base es
end

end Jess
