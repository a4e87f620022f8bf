import Verif.Model.TextFormat
import Verif.Model.Stores

/-!
# `jess import` with a directory trust store
-/

namespace Jess

/-- cmd/cmd-import-export.go:113-172 `handleImport` with the directory trust store: what was parsed is stored. `w` says how writing the file
ends. -/
def importDir (P : Prims) (D : Dsd) (S : DirStore) (fs : FS) (w : WriteEnd) (text : Bytes) : FS × Res Unit :=
  match cmdImport P D text with
  | .error e => (fs, .error e)
  | .ok (.signet s) => S.storeSignet D fs w s
  | .ok (.envelope e) => S.storeEnvelope D fs w e

end Jess
