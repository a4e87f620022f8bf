import Verif.Model.Stores
import Verif.Model.FileText

/-!
# `jess generate`

cmd/cfg-signet.go `newSignet`, cmd/cmd-generate.go, signet.go `AssignUUID`. The trust store is any implementation of `StoreSignet`; the
terminal dialogs are values of the environment. The creation date is not modelled.
-/

namespace Jess

/-- github.com/gofrs/uuid (dependency): `SetVersion(V4)` and `SetVariant(VariantRFC4122)` on 16 bytes. -/
def uuidMark (u : Bytes) : Bytes :=
  (u.set 6 ((u.getD 6 0 &&& 0x0f) ||| 0x40)).set 8 ((u.getD 8 0 &&& 0x3f) ||| 0x80)

/-- github.com/gofrs/uuid (dependency): `String`, the canonical form. -/
def uuidText (u : Bytes) : Bytes :=
  hexEncode (u.take 4) ++ [45] ++ hexEncode ((u.drop 4).take 2) ++ [45] ++ hexEncode ((u.drop 6).take 2) ++ [45] ++
    hexEncode ((u.drop 8).take 2) ++ [45] ++ hexEncode (u.drop 10)

/-- What `newSignet` uses of its surroundings: the primitives, the flags `--symkeysize` and `--seclevel`, the dialogs, the randomness of
the key generation, of `RandomBytes` (given the size) and of the UUID (`io.ReadFull` of 16 bytes), and `StoreSignet` of the trust store,
which is called up to twice. -/
structure GenEnv (σ : Type) where
  P : Prims
  symKeySize : Int
  minLevel : Int
  askName : Res Bytes
  askScheme : Res Bytes
  seed : Bytes
  random : Nat → Res Bytes
  uuid : Res Bytes
  put : Nat → σ → Signet → σ × Res Unit

/-- cfg-signet.go:17-27 and 30-49: a flag, trimmed, or else the answer to the question. -/
def flagOrAsk (flag : Bytes) (answer : Res Bytes) : Res Bytes :=
  if trimSpace flag = [] then answer else .ok (trimSpace flag)

/-- cfg-signet.go:61-73: a shared key. A negative size makes `RandomBytes` panic. -/
def genSecretKey {σ : Type} (E : GenEnv σ) : Res Signet :=
  if E.symKeySize = 0 then .error .config
  else if E.symKeySize < 0 then .error .panic
  else do
    let k ← E.random E.symKeySize.toNat
    .ok { version := 1, scheme := schemeKey, key := k }

/-- cfg-signet.go:75-104: a key pair for a tool. -/
def genToolKey {σ : Type} (E : GenEnv σ) (scheme : Bytes) : Res Signet :=
  match getTool scheme with
  | none => .error .notFound
  | some t =>
    if t.needsSecurityLevel = true ∧ E.minLevel ≤ 0 then .error .config
    else if t.needsDefaultKeySize = true ∧ E.symKeySize ≤ 0 then .error .config
    else
      match Signet.generateKey E.P E.seed { version := 1, scheme := t.name } with
      | (_, .error e) => .error e
      | (s, .ok _) => s.store E.P

/-- cfg-signet.go:51-105: the switch over the scheme. -/
def genKey {σ : Type} (E : GenEnv σ) (scheme : Bytes) : Res Signet :=
  if scheme = schemePassword then .ok { version := 1, scheme := schemePassword }
  else if scheme = schemeKey then genSecretKey E
  else genToolKey E scheme

/-- cfg-signet.go:15-114 `newSignet` before it saves: the signet and the scheme. -/
def genSignet {σ : Type} (E : GenEnv σ) (name scheme : Bytes) : Res (Signet × Bytes) := do
  let name ← flagOrAsk name E.askName
  let scheme ← flagOrAsk scheme E.askScheme
  let s ← genKey E scheme
  let u ← E.uuid
  .ok ({ s with id := uuidText (uuidMark u), info := some { name := name } }, scheme)

/-- cfg-signet.go:122-138: the recipient is saved, too. -/
def saveRecipient {σ : Type} (E : GenEnv σ) (st : σ) (s : Signet) : σ × Res Unit :=
  match s.asRecipient E.P with
  | .error e => (st, .error e)
  | .ok r =>
    match r.store E.P with
    | .error e => (st, .error e)
    | .ok r => E.put 1 st r

/-- cfg-signet.go:114-140: saving. -/
def saveSignet {σ : Type} (E : GenEnv σ) (st : σ) (s : Signet) (scheme : Bytes) : σ × Res Unit :=
  match E.put 0 st s with
  | (st, .error e) => (st, .error e)
  | (st, .ok _) => if scheme = schemePassword ∨ scheme = schemeKey then (st, .ok ()) else saveRecipient E st s

/-- cfg-signet.go:15-143 `newSignet`. -/
def newSignet {σ : Type} (E : GenEnv σ) (st : σ) (name scheme : Bytes) (save : Bool) : σ × Res Signet :=
  match genSignet E name scheme with
  | .error e => (st, .error e)
  | .ok (s, scheme) =>
    if save then
      match saveSignet E st s scheme with
      | (st, .error e) => (st, .error e)
      | (st, .ok _) => (st, .ok s)
    else (st, .ok s)

/-- cmd-generate.go:39-63: the two texts that are printed with `--textonly`. -/
def genTexts (P : Prims) (D : Dsd) (s : Signet) : Res (Bytes × Bytes) := do
  let backup ← s.backup P D false
  let r ← s.asRecipient P
  let r ← r.store P
  let export_ ← r.export P D false
  .ok (backup, export_)

/-- cmd-generate.go:27-71: the command. Printed texts, if any. -/
def generateCommand {σ : Type} (E : GenEnv σ) (D : Dsd) (st : σ) (name scheme : Bytes) (textOnly : Bool) : σ × Res (Option (Bytes × Bytes)) :=
  match newSignet E st name scheme (!textOnly) with
  | (st, .error e) => (st, .error e)
  | (st, .ok s) => if textOnly then (st, (genTexts E.P D s).map some) else (st, .ok none)

end Jess
