import Verif.Model.Dialogs

/-!
# `jess list`

cmd/cmd-list.go; tools/tools.go, hashtools/tools.go (the sorted lists). The author and the comment of a tool are constants of the tool's
file that nothing but this command uses; they are a parameter.
-/

namespace Jess

/-- Go's `<` on strings: bytewise. -/
def bytesLess : Bytes → Bytes → Bool
  | _, [] => false
  | [], _ :: _ => true
  | a :: as, b :: bs => if a.toNat < b.toNat then true else if b.toNat < a.toNat then false else bytesLess as bs

/-- `sort.Sort` after appending to a sorted list: the new element is put at its place. (`sort.Sort` is not stable; the names are different.) -/
def insertByName {α : Type} (name : α → Bytes) (x : α) : List α → List α
  | [] => [x]
  | y :: ys => if bytesLess (name x) (name y) then x :: y :: ys else y :: insertByName name x ys

/-- tools/tools.go:14-19 `Register` of all tools, tools/tools.go:46-48 `AsList`. -/
def toolsAsList : List ToolInfo := toolTable.foldl (fun l t => insertByName ToolInfo.name t l) []

/-- hashtools/tools.go:19-23 `Register` of all hash tools, hashtools/tools.go:50-52 `AsList`. -/
def hashToolsAsList : List HashTool := hashTable.foldl (fun l t => insertByName HashTool.name t l) []

/-- cmd/format.go:46-54 `formatToolSecurityLevel`. -/
def formatToolSecurityLevel (t : ToolInfo) : Bytes :=
  if t.needsSecurityLevel then b!"dynamic b/s (set manually via --seclevel)"
  else if t.securityLevel = 0 then []
  else formatSecurityLevel t.securityLevel

/-- cmd/cmd-list.go:24-35: the table of suites. suites.go:48-50 `Suites`. -/
def suitesTable (reg : List Suite) : List (List Bytes) :=
  [b!"Name/ID", b!"Provides", b!"Security Level", b!"Tools", b!"Notes"] ::
    reg.map (fun s => [s.id, s.provides.shortString, formatSecurityLevel s.securityLevel, joinBytes b!", " s.tools, formatSuiteStatus s])

/-- cmd/cmd-list.go:41-52: the table of tools. -/
def toolsTable (about : Bytes → Bytes × Bytes) : List (List Bytes) :=
  [b!"Name/ID", b!"Purpose", b!"Security Level", b!"Author", b!"Comment"] ::
    toolsAsList.map (fun t => [t.name, formatPurpose t.purpose, formatToolSecurityLevel t, (about t.name).1, (about t.name).2])

/-- cmd/cmd-list.go:58-68: the table of hash tools. -/
def hashToolsTable (about : Bytes → Bytes × Bytes) : List (List Bytes) :=
  [b!"Name/ID", b!"Security Level", b!"Author", b!"Comment"] ::
    hashToolsAsList.map (fun h => [h.name, decimal h.securityLevel ++ b!" b/s", (about h.name).1, (about h.name).2])

/-- cmd/cmd-list.go:36-38, 53-55, 69-71: prints the lines. -/
def printLines (ls : List Bytes) : Bytes := ls.flatMap (· ++ [10])

/-- cmd/cmd-list.go:22-72: what `jess list` prints. -/
def listCommand (pad : List (List Bytes) → Nat → Nat → Nat) (aboutTool aboutHash : Bytes → Bytes × Bytes) : Bytes :=
  b!"Suites\n\n" ++ printLines (formatColumns pad (suitesTable suiteRegistry)) ++
  b!"\n\nTools\n\n" ++ printLines (formatColumns pad (toolsTable aboutTool)) ++
  b!"\n\nHashTools\n\n" ++ printLines (formatColumns pad (hashToolsTable aboutHash))

end Jess
