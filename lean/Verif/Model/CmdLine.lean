import Verif.Model.CmdFiles
import Verif.Model.TextFormat

/-!
# Global flags: `cmd/main.go`, and the text commands with their arguments: `cmd/cmd-import-export.go`

`initGlobalFlags` runs before every command (`PersistentPreRunE` of the root command; no other command has one).
-/

namespace Jess

/-- cmd/main.go:31-35, 42-56 the global flags (empty or zero if not given). -/
structure Flags where
  tsdir : Bytes := []
  tskeyring : Bytes := []
  no : Bytes := []
  seclevel : Int := 0
  symkeysize : Int := 0
  deriving DecidableEq, Repr

/-- A trust store that was opened. -/
inductive StoreRef where
  | dir (path : Bytes)
  | keyring (namespace_ : Bytes)
  deriving DecidableEq, Repr

/-- The environment of the process: the variables (`os.LookupEnv` without its flag: empty if not set), truststores/dir.go:243-262 `NewDirTrustStore` and
truststores/keyring.go:28-47 `NewKeyringTrustStore` (whether they succeed). -/
structure Machine where
  env : Bytes → Bytes
  openDir : Bytes → Res Unit
  openKeyring : Bytes → Res Unit

/-- What the commands work with: cmd/main.go:37-38 and the package variables of defaults.go. -/
structure CmdGlobals where
  store : Option StoreRef
  reqs : Option Requirements
  cfg : Config

/-- cmd/main.go:63-68 the directory. -/
def storeDir (M : Machine) (f : Flags) : Bytes :=
  if f.tsdir = [] then
    if M.env b!"JESS_TS_DIR" = [] then M.env b!"JESS_TSDIR" else M.env b!"JESS_TS_DIR"
  else f.tsdir

/-- cmd/main.go:78-83 the keyring. -/
def storeKeyring (M : Machine) (f : Flags) : Bytes :=
  if f.tskeyring = [] then
    if M.env b!"JESS_TS_KEYRING" = [] then M.env b!"JESS_TSKEYRING" else M.env b!"JESS_TS_KEYRING"
  else f.tskeyring

/-- cmd/main.go:63-90 the trust store. -/
def openStore (M : Machine) (f : Flags) : Res (Option StoreRef) :=
  if storeDir M f ≠ [] then do
    M.openDir (storeDir M f)
    .ok (some (.dir (storeDir M f)))
  else if storeKeyring M f ≠ [] then do
    M.openKeyring (storeKeyring M f)
    .ok (some (.keyring (storeKeyring M f)))
  else .ok none

/-- cmd/main.go:92-98 the requirements. -/
def flagReqs (f : Flags) : Res (Option Requirements) := if f.no ≠ [] then (Requirements.parseNoSpec f.no).map some else .ok none

/-- cmd/main.go:100-106 security level and key size. -/
def flagConfig (cfg : Config) (f : Flags) : Config :=
  let cfg := if f.seclevel > 0 then cfg.setMinimumSecurityLevel f.seclevel else cfg
  if f.symkeysize > 0 then cfg.setDefaultKeySize f.symkeysize.toNat else cfg

/-- cmd/main.go:62-109 `initGlobalFlags`. -/
def initGlobalFlags (M : Machine) (cfg : Config) (f : Flags) : Res CmdGlobals := do
  let store ← openStore M f
  let reqs ← flagReqs f
  .ok { store := store, reqs := reqs, cfg := flagConfig cfg f }

/-- cmd/cmd-import-export.go:20-28, 45-90 `jess export <id>`: the printed line. There is no `PreRunE`; a method call on the nil interface `trustStore` panics. -/
def exportCommand (P : Prims) (D : Dsd) (ts : Option TextStore) (args : List Bytes) : Res Bytes :=
  match args with
  | [id] => match ts with | none => .error .panic | some ts => cmdExport P D ts id
  | _ => .error .malformed

/-- cmd/cmd-import-export.go:29-35, 92-111 `jess backup <id>`. -/
def backupCommand (ts : Option TextStore) (args : List Bytes) : Res Bytes :=
  match args with
  | [id] => match ts with | none => .error .panic | some ts => cmdBackup ts id
  | _ => .error .malformed

/-- cmd/cmd-import-export.go:37-42, 113-170 `jess import <text>`; `store` is `StoreSignet` and `StoreEnvelope` of the trust store. -/
def importCommand (P : Prims) (D : Dsd) (store : Option (Imported → Res Unit)) (args : List Bytes) : Res Unit :=
  match args with
  | [text] => do
    let x ← cmdImport P D text
    match store with
    | none => .error .panic
    | some put => put x
  | _ => .error .malformed

end Jess
