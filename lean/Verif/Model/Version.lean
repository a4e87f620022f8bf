import Verif.Model.Basic

/-!
# The version of the command

cmd/cmd-version.go. `debug.ReadBuildInfo` returns nil for binaries that were built without module support.
-/

namespace Jess

/-- `runtime/debug.BuildInfo.Settings`, or nil. -/
abbrev BuildInfo := Option (List (Bytes × Bytes))

/-- What the linker sets, and what `runtime` says. -/
structure BuildVars where
  /-- cmd/cmd-version.go:18 `Version` -/
  version : Bytes := b!"dev build"
  /-- cmd/cmd-version.go:20 `BuildSource` -/
  source : Bytes := b!"unknown"
  /-- cmd/cmd-version.go:22 `BuildTime` -/
  time : Bytes := b!"unknown"
  /-- `runtime.Version()`, `runtime.Compiler`, `runtime.GOOS`, `runtime.GOARCH` -/
  goVersion : Bytes := b!"go1.22"
  compiler : Bytes := b!"gc"
  goos : Bytes := b!"linux"
  goarch : Bytes := b!"amd64"
  deriving DecidableEq, Repr

/-- `strings.ReplaceAll(s, "_", " ")` -/
def underscores (s : Bytes) : Bytes := s.map (fun c => if c = 95 then 32 else c)

/-- cmd/cmd-version.go:32-35 and 57-60: the map of build settings; a later setting replaces an earlier one, what is missing is empty. -/
def settingOf (settings : List (Bytes × Bytes)) (key : Bytes) : Bytes := settings.foldl (fun v p => if p.1 = key then p.2 else v) []

/-- cmd/cmd-version.go:25-45 `init`: runs before every command; nil build info is dereferenced. -/
def initVersion (info : BuildInfo) (v : BuildVars) : Res BuildVars :=
  let v := { v with version := underscores v.version, source := underscores v.source, time := underscores v.time }
  match info with
  | none => .error .panic
  | some settings =>
    if settingOf settings b!"vcs.modified" = b!"true" ∧ hasSuffix v.version b!"dev build" = false then
      .ok { v with version := v.version ++ b!" dev build" }
    else .ok v

/-- cmd/cmd-version.go:52-86 `version`: what is printed. -/
def versionText (info : BuildInfo) (v : BuildVars) : Res Bytes :=
  match info with
  | none => .error .panic
  | some settings =>
    let cgo := if settingOf settings b!"CGO_ENABLED" = b!"1" then b!"+cgo" else b!"-cgo"
    let dirty := if settingOf settings b!"vcs.modified" = b!"true" then b!"dirty" else b!"clean"
    .ok (b!"Jess " ++ v.version ++ b!"\n" ++
      b!"\nbuilt with " ++ v.goVersion ++ b!" (" ++ v.compiler ++ b!" " ++ cgo ++ b!") for " ++ v.goos ++ b!"/" ++ v.goarch ++ b!"\n" ++
      b!"  at " ++ v.time ++ b!"\n" ++
      b!"\ncommit " ++ settingOf settings b!"vcs.revision" ++ b!" (" ++ dirty ++ b!")\n" ++
      b!"  at " ++ settingOf settings b!"vcs.time" ++ b!"\n" ++
      b!"  from " ++ v.source ++ b!"\n" ++
      b!"\nLicensed under the GPLv3 license." ++ b!"\n")

/-- `jess version`: the start of the program and the command. -/
def versionCommand (info : BuildInfo) (v : BuildVars) : Res Bytes := do
  let v ← initVersion info v
  versionText info v

end Jess
