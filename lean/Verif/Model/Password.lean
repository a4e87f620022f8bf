import Verif.Model.Support
import Verif.Model.FileText
import Verif.Model.LHash
import Verif.Model.Dialogs

/-! # Asking for passwords: `cmd/password.go` -/

namespace Jess

/-- A response to an HTTP request: the status, what could be read of the body, and whether reading it failed then. -/
structure HttpResponse where
  status : Nat
  body : Bytes
  failed : Bool

/-- What the user types and what the network does while a password is created. -/
structure PwDialog where
  /-- what is typed at the first prompt, one after the other; then the user interrupts the program -/
  tries : List Bytes
  /-- what is typed at the second prompt -/
  again : Res Bytes
  /-- the answer to the question whether to check if the password was compromised -/
  check : Res Bool
  /-- the answer to an HTTP GET request for this URL -/
  http : Bytes → Res HttpResponse

/-- Go standard library `strings.ToUpper`, on ASCII. -/
def toUpper (b : Bytes) : Bytes := b.map (fun c => if 97 ≤ c ∧ c ≤ 122 then c - 32 else c)

/-- cmd/password.go:61-72 the validator of the first prompt. -/
def pwValid (min : Int) (pw : Bytes) : Bool := ¬ passwordLevel pw 20000 < min

/-- cmd/password.go:55-75 the first prompt; survey repeats it until the validator accepts. -/
def pwFirst (min : Int) : List Bytes → Res Bytes
  | [] => .error .env
  | pw :: rest => if pwValid min pw then .ok pw else pwFirst min rest

/-- cmd/password.go:129-143 the loop over the lines of the response. -/
def hibpLines (suffix : Bytes) : List Bytes → Res Unit
  | [] => .ok ()
  | l :: ls =>
    if scanLine l = false then .error .env
    else if hasPrefix (scannedLine l) suffix then .error .level
    else hibpLines suffix ls

/-- cmd/password.go:125-148 look for the rest of the hash in the response. -/
def hibpResponse (suffix : Bytes) (r : HttpResponse) : Res Unit := do
  hibpLines suffix (rawLines r.body)
  if r.failed then .error .env else .ok ()

/-- cmd/password.go:116 the address of the service. -/
def hibpURL (pfx : Bytes) : Bytes := b!"https://api.pwnedpasswords.com/range/" ++ pfx

/-- cmd/password.go:105-148 `checkForWeakPassword`: the result, and the URLs requested. -/
def checkForWeakPassword (sha1 : Bytes → Bytes) (D : PwDialog) (pw : Bytes) : Res Unit × List Bytes :=
  let hexSum := hexEncode (sha1 pw)
  let url := hibpURL (toUpper (hexSum.take 5))
  (match D.http url with
    | .error e => .error e
    | .ok r => hibpResponse (toUpper (hexSum.drop 5)) r, [url])

/-- cmd/password.go:92-100 the question and the check. -/
def pwCheck (sha1 : Bytes → Bytes) (D : PwDialog) (pw : Bytes) : Res Bytes × List Bytes :=
  match D.check with
  | .error e => (.error e, [])
  | .ok false => (.ok pw, [])
  | .ok true =>
    match checkForWeakPassword sha1 D pw with
    | (.error e, u) => (.error e, u)
    | (.ok _, u) => (.ok pw, u)

/-- cmd/password.go:54-103 `createPassword`: the result, and the URLs requested. -/
def createPassword (sha1 : Bytes → Bytes) (D : PwDialog) (min : Int) : Res Bytes × List Bytes :=
  match pwFirst min D.tries with
  | .error e => (.error e, [])
  | .ok pw1 =>
    match D.again with
    | .error e => (.error e, [])
    | .ok pw2 => if pw1 ≠ pw2 then (.error .malformed, []) else pwCheck sha1 D pw1

/-- cmd/password.go:31-38 `createPasswordInterface`. -/
def createPasswordInterface (sha1 : Bytes → Bytes) (D : PwDialog) (s : Signet) (min : Int) : Res Signet := do
  let pw ← (createPassword sha1 D min).1
  .ok { s with key := pw }

/-- cmd/password.go:22-29 `getPasswordInterface`, with what is typed. -/
def getPasswordInterface (typed : Res Bytes) (s : Signet) : Res Signet := do
  let pw ← typed
  .ok { s with key := pw }

end Jess
