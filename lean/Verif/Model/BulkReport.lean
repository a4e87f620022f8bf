import Verif.Model.CmdVerify

/-!
# The report of a bulk verification: `cmd/cmd-verify.go`

The same loops as in `Verif.Model.CmdVerify`, with what they print. `why` is the text of the error of a path that could not be read.
-/

namespace Jess

/-- The state, and what was printed. -/
structure BulkRun where
  st : BulkState := {}
  out : Bytes := []
  deriving DecidableEq, Repr

/-- cmd/cmd-verify.go:70, 82 the line about a path that could not be read. -/
def warnLine (why : Bytes → Bytes) (path : Bytes) : Bytes := b!"[WARN] " ++ path ++ b!" failed to read: " ++ why path ++ [10]

/-- cmd/cmd-verify.go:88-90, 103-105, 120-162 verify, print and count. -/
def outVerify (V : VerifyEnv) (r : BulkRun) (filename : Bytes) : Res BulkRun :=
  match verifyPrints V true r.st.memo filename with
  | none => .error .panic
  | some t => do
    let st ← bulkVerify V r.st filename
    .ok { st := st, out := r.out ++ t }

/-- cmd/cmd-verify.go:68-72, 79-84 warn and count. -/
def outWarn (why : Bytes → Bytes) (r : BulkRun) (path : Bytes) : BulkRun :=
  { st := { r.st with warnings := r.st.warnings + 1 }, out := r.out ++ warnLine why path }

/-- cmd/cmd-verify.go:77-93 the function given to `filepath.Walk`. -/
def outEvent (V : VerifyEnv) (why : Bytes → Bytes) (r : BulkRun) : WalkEvent → Res BulkRun
  | .failed p => .ok (outWarn why r p)
  | .path p => if hasSuffix p sigExt || hasSuffix p letterExt then outVerify V r p else .ok r

/-- All calls of the function given to `filepath.Walk`. -/
def outWalk (V : VerifyEnv) (why : Bytes → Bytes) : BulkRun → List WalkEvent → Res BulkRun
  | r, [] => .ok r
  | r, ev :: evs => do
    let r ← outEvent V why r ev
    outWalk V why r evs

/-- cmd/cmd-verify.go:66-106 one file of the list. -/
def outFile (V : VerifyEnv) (why : Bytes → Bytes) (r : BulkRun) (file : Bytes) : Res BulkRun :=
  match V.stat file with
  | none => .ok (outWarn why r file)
  | some i => if i.isDir then outWalk V why r (V.walk file) else outVerify V r file

/-- cmd/cmd-verify.go:66-106 the loop over the files. -/
def outFiles (V : VerifyEnv) (why : Bytes → Bytes) : BulkRun → List Bytes → Res BulkRun
  | r, [] => .ok r
  | r, f :: fs => do
    let r ← outFile V why r f
    outFiles V why r fs

/-- cmd/cmd-verify.go:55-106 verify all files: the counters and what is printed. -/
def outBulk (V : VerifyEnv) (why : Bytes → Bytes) (args : List Bytes) : Res BulkRun := do
  let files ← globAll V args
  outFiles V why {} files

end Jess
