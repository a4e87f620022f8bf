import Verif.Vectors.Files
import Verif.Model.Formats
import Verif.Vectors.Ed25519
import Verif.Model.BulkReport
import Verif.Model.CmdFiles
import Verif.Model.KeyCodec

/-!
# The model runs on the files of `cmd/testdata`

The commands of the model, with the real hash functions, Ed25519 and the serialization formats, on the files that the real program
wrote: what it signed is accepted, and signing again (with the same nonce and time) gives the same bytes.
-/

namespace Jess.Vectors

open Formats

def toNats (b : Bytes) : List Nat := b.map UInt8.toNat
def ofNats (b : List Nat) : Bytes := b.map UInt8.ofNat

/-- The private key, if there is one. -/
def loaded : PrivKey → Option Bytes
  | .key b => some b
  | _ => none

def noKeyLib : KeyLib :=
  { checkX := fun _ => false, checkNist := fun _ _ _ => false, parsePub := fun _ => none, parsePriv := fun _ => none, marshalPub := id,
    marshalPriv := id }

/-- The primitives that signing uses: hash functions and Ed25519. -/
def realPrims : Prims where
  kdf _ _ _ _ _ _ := .error .unsupported
  passKdf _ _ _ _ := .error .unsupported
  genKey _ _ := .error .unsupported
  loadKey tool key isPublic := (toolLoadKey noKeyLib tool key isPublic).map fun (pub, priv) => (pub, loaded priv)
  storeKey tool pub priv := (toolStoreKey noKeyLib tool pub (match priv with | none => .nil | some p => .key p)).map (·.1)
  dh _ _ _ := []
  encap _ _ _ _ _ := .error .unsupported
  unwrap _ _ _ _ := .error .unsupported
  encrypt _ _ _ _ := .error .unsupported
  decrypt _ _ _ _ := .error .unsupported
  aeadSeal _ _ _ _ _ := .error .unsupported
  aeadOpen _ _ _ _ _ := .error .unsupported
  mac _ _ _ _ := []
  hash name msg := match labeledAlgs.lookup name with | some alg => realHashes alg msg | none => []
  sign tool _ priv digest _ := if tool = b!"Ed25519" then .ok (ofNats (edSign (toNats priv) (toNats digest))) else .error .unsupported
  verify tool _ pub digest sig := tool == b!"Ed25519" && edVerify (toNats pub) (toNats digest) (toNats sig)
  rsaBits _ := none

def realConfig : Config := { pwLevel := fun _ _ => 0 }

def realSigEnv : SigEnv := { P := realPrims, cfg := realConfig, C := realCodec, H := realHashes }

/-- The trust store of the files. -/
def repoStore : DirStore := { cwd := [], storageDir := b!".truststore" }

def repoWorld : World := { store := some (repoStore.getSignet realDsd repoFS) }

def noncely (nonce : Bytes) : Rng := { read := fun _ _ => .ok nonce, seed := fun _ => [] }

/-- cmd/testdata as `filepath.Walk` sees it. -/
def repoTree : Tree := .dir [
  (b!".truststore", .dir [(b!"3911c84c-78f7-4354-a7f5-0e115aa2903c.recipient", .file), (b!"3911c84c-78f7-4354-a7f5-0e115aa2903c.signet", .file),
    (b!"safing-codesign-1.envelope", .file)]),
  (b!"test.txt", .file), (b!"test.txt.letter", .file), (b!"test.txt.sig", .file), (b!"test3.txt", .file), (b!"test3.txt.sig", .file),
  (b!"test4.txt", .file), (b!"testdir", .dir [(b!"test2.txt", .file), (b!"test2.txt.sig", .file)])]

def repoWalk : List WalkEvent := walkTree b!"." [] repoTree

/-- The verify command in cmd/testdata. -/
def repoVerify : VerifyEnv where
  E := realSigEnv
  w := repoWorld
  hc := realHeader
  reqs := none
  metaFlag := []
  glob p := .ok [p]
  stat p := match repoFS (resolve [] p) with
    | none => none
    | some .dir => some { isDir := true, size := 0 }
    | some (.file d) => some { isDir := false, size := d.length }
  walk p := if p = b!"." then repoWalk else []
  read p := match repoFS (resolve [] p) with | some (.file d) => some d | _ => none
  source p := fun _ => match repoFS (resolve [] p) with | some (.file d) => some { chunks := [d] } | _ => none
  stdin := none
  confirm _ := .error .env

set_option maxRecDepth 100000 in
/-- `jess verify test.txt.letter`. -/
theorem repo_letter_verifies : verifyLetterFile repoVerify false b!"test.txt.letter" =
    .ok ([b!"Safing Code Signing Cert 1 (3911c84c-78f7-4354-a7f5-0e115aa2903c)"],
      b!"Verification: OK\nSigned By: Safing Code Signing Cert 1 (3911c84c-78f7-4354-a7f5-0e115aa2903c)\n") := by
  decide +kernel

/-- The name under which the signer is shown. -/
def repoSigner : Bytes := b!"Safing Code Signing Cert 1 (3911c84c-78f7-4354-a7f5-0e115aa2903c)"

set_option maxRecDepth 100000 in
/-- `jess verify test.txt`: the signature file, with the report that is printed. -/
theorem repo_signature_verifies : verifySigFile repoVerify false b!"test.txt" b!"test.txt.sig" = .ok ([],
    b!"Verification: OK\n\nSigned By: Safing Code Signing Cert 1 (3911c84c-78f7-4354-a7f5-0e115aa2903c)\n\nHash Alg: SHA2_256\nHash Sum: ecf701f727d9e2d77c4aa49ac6fbbcc997278aca010bddeeb961c10cf54d435a\n\nMetadata:\n    identifier: windows/code/thing\n    version: 0.0.1\n\nFile: test.txt\nSig:  test.txt.sig\n") := by
  decide +kernel

set_option maxRecDepth 100000 in
/-- `jess verify .`: all signed files, with the lines that are printed. -/
theorem repo_tree_verifies : (outBulk repoVerify (fun _ => []) [b!"."]).map (fun r => (r.st.fails, r.st.warnings, r.out)) = .ok (0, 0,
    b!"[ OK ] test.txt.letter signed by Safing Code Signing Cert 1 (3911c84c-78f7-4354-a7f5-0e115aa2903c)\n" ++ b!"[ OK ] test.txt signed by Safing Code Signing Cert 1 (3911c84c-78f7-4354-a7f5-0e115aa2903c)\n" ++
    b!"[ OK ] test3.txt signed by Safing Code Signing Cert 1 (3911c84c-78f7-4354-a7f5-0e115aa2903c)\n" ++ b!"[ OK ] testdir/test2.txt signed by Safing Code Signing Cert 1 (3911c84c-78f7-4354-a7f5-0e115aa2903c)\n") := by
  decide +kernel

/-- What `jess close` and `jess sign` see. -/
def repoCmd (nonce : Bytes) (now : Nat) (metaFlag : List (Bytes × Bytes)) : CmdEnv where
  E := realSigEnv
  J := { parse := fun _ => none, pretty := fun _ => [], sortKeys := id, unesc := id, esc := id, setOther := fun _ _ _ => .error .unsupported, newFirst := true }
  w := repoWorld
  rng := noncely nonce
  hc := realHeader
  envelopes := repoStore.getEnvelope realDsd suiteRegistry repoFS
  reqs := none
  metaFlag := metaFlag
  cwd := []
  stdin := .error .env
  answer _ := .ok true
  out := .done
  now := now

set_option maxRecDepth 100000 in
/-- `jess close test.txt with safing-codesign-1` writes the file test.txt.letter of the repository, if it draws the same nonce. -/
theorem repo_letter_reproduced :
    let r := closeCommand (repoCmd [0xa4, 0xa3, 0x90, 5] 0 []) { fs := repoFS, stdout := [] } [b!"test.txt", b!"with", b!"safing-codesign-1"] b!"new.letter"
    r.2 = .ok () ∧ r.1.fs [b!"new.letter"] = some (.file fileTestLetter) := by
  decide +kernel

set_option maxRecDepth 100000 in
/-- `jess sign test.txt with safing-codesign-1` writes the file test.txt.sig of the repository, if it draws the same nonce at the same time. -/
theorem repo_signature_reproduced :
    let r := signCommand (repoCmd [0x1b, 0xf8, 0xca, 0x80] 1657531275 [(b!"version", b!"0.0.1"), (b!"identifier", b!"windows/code/thing")])
      { fs := repoFS, stdout := [] } [b!"test.txt", b!"with", b!"safing-codesign-1"] b!"new.sig"
    r.2 = .ok () ∧ r.1.fs [b!"new.sig"] = some (.file fileTestSig) := by
  decide +kernel

end Jess.Vectors
