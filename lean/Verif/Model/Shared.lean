import Verif.Model.LetterOps

/-! # Signets shared by concurrent sessions: `envelope.go` `prepSignets`, `signet.go` `LoadKey`, `truststore.go`

The in-memory trust store hands out pointers to the signets it holds. Sessions which are prepared at the same time load the keys of these signets.
Every access to a field of a signet is one step; steps of different threads are interleaved in any order (sequential consistency). -/

namespace Jess

/-- The state of the object of a signet: the fields `loadedPublicKey` and `loadedPrivateKey`, signet.go:41-43. The other fields do not change. -/
structure Loaded where
  pub : Option Bytes
  priv : Option Bytes
  deriving DecidableEq

/-- Where a thread is in preparing its signets (envelope.go:181-243). -/
inductive Prep (κ : Type) where
  /-- about to prepare the first of `todo` -/
  | next (done todo : List κ)
  /-- x25519.go:76, nist.go:104, ed25519.go:101, rsa-keys.go:102: about to call `SetLoadedKeys`, i.e. at signet.go:133 -/
  | loaded (done : List κ) (k : κ) (todo : List κ) (pub : Bytes) (priv : Option Bytes)
  /-- signet.go:134: the public key is set, the private key not yet -/
  | half (done : List κ) (k : κ) (todo : List κ) (priv : Option Bytes)
  /-- all signets are prepared -/
  | ready (ks : List κ)
  | failed (e : Err)
  deriving DecidableEq

/-- The objects of the signets, and the threads. -/
structure Shared (κ : Type) where
  obj : κ → Loaded
  thread : Nat → Prep κ

/-- The signet as a thread sees it. -/
def Shared.signet {κ : Type} (base : κ → Signet) (st : Shared κ) (k : κ) : Signet :=
  { base k with loadedPub := (st.obj k).pub, loadedPriv := (st.obj k).priv }

/-- Before any session: the threads with the signets they need, in order. -/
def Shared.start {κ : Type} (base : κ → Signet) (prog : Nat → List κ) : Shared κ :=
  { obj := fun k => { pub := (base k).loadedPub, priv := (base k).loadedPriv }, thread := fun i => .next [] (prog i) }

/-- envelope.go:222-238, signet.go:165-183 up to the call of `SetLoadedKeys`: what a thread does when it has got a signet. -/
def prepNext {κ : Type} (P : Prims) (done todo : List κ) (k : κ) (s : Signet) : Prep κ :=
  if s.protection then .failed .unsupported
  else if s.scheme = schemeKey ∨ s.scheme = schemePassword then .next (done ++ [k]) todo
  else if s.loadedPub.isSome then .next (done ++ [k]) todo
  else match s.load P with
    | .error e => .failed e
    | .ok l =>
      match l.loadedPub with
      | none => .failed .panic
      | some pub => .loaded done k todo pub l.loadedPriv

/-- One step of a thread. -/
def Shared.step {κ : Type} [DecidableEq κ] (P : Prims) (base : κ → Signet) (st : Shared κ) (i : Nat) : Shared κ :=
  let set := fun (p : Prep κ) => fun j => if j = i then p else st.thread j
  match st.thread i with
  | .next done [] => { st with thread := set (.ready done) }
  | .next done (k :: todo) => { st with thread := set (prepNext P done todo k (st.signet base k)) }
  | .loaded done k todo pub priv =>
    { obj := fun k' => if k' = k then { st.obj k with pub := some pub } else st.obj k', thread := set (.half done k todo priv) }
  | .half done k todo priv =>
    { obj := fun k' => if k' = k then { st.obj k with priv := priv } else st.obj k', thread := set (.next (done ++ [k]) todo) }
  | .ready _ => st
  | .failed _ => st

/-- A schedule: the threads that take the steps. -/
def Shared.run {κ : Type} [DecidableEq κ] (P : Prims) (base : κ → Signet) : Shared κ → List Nat → Shared κ
  | st, [] => st
  | st, i :: is => Shared.run P base (st.step P base i) is

/-- truststore.go:34-46 `GetSignet` of the in-memory store: the object itself. -/
def Shared.get (base : Bytes × Bool → Signet) (held : Bytes × Bool → Bool) (st : Shared (Bytes × Bool)) (id : Bytes) (r : Bool) : Res Signet :=
  if held (id, r) then .ok (st.signet base (id, r)) else .error .signetNotFound

end Jess
