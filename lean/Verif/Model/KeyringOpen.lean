import Verif.Model.Stores

/-!
# The keyring of the system and the stores in it

truststores/keyring.go:28-47: keyring stores are opened by name over one keyring of the system. The keyring of the system keeps entries by service and
key (go-keyring, trusted); how it fails is given with each call.
-/

namespace Jess

/-- The keyring of the system: entries by service. -/
abbrev SysRing := Bytes → Keyring

/-- keyring.go:13 and 30: the service of a store. -/
def ringService (name : Bytes) : Bytes := b!"jess:" ++ name

def SysRing.put (k : SysRing) (service : Bytes) (r : Keyring) : SysRing := fun s => if s = service then r else k s

/-- What goes wrong while a store is opened: nothing, the entry is refused, it can not be read, or something else is read. -/
inductive RingFault where
  | none
  | set
  | get
  | other (read : Bytes)
  deriving DecidableEq

/-- keyring.go:28-47 `NewKeyringTrustStore`: the keyring after it, and the service of the store. -/
def newKeyring (k : SysRing) (fault : RingFault) (name : Bytes) : SysRing × Res Bytes :=
  let service := ringService name
  match fault with
  | .set => (k, .error .env)
  | fault =>
    let k' := k.put service (fun x => if x = b!"_selfcheck" then some b!"!selfcheck" else k service x)
    let read : Option Bytes :=
      match fault with
      | .get => Option.none
      | .other b => some b
      | _ => k' service b!"_selfcheck"
    match read with
    | Option.none => (k', .error .env)
    | some b => if b = b!"!selfcheck" then (k', .ok service) else (k', .error .unsupported)

end Jess
