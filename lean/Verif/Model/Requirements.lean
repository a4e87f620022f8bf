import Verif.Model.Basic

/-!
# Security requirements: `requirements.go`
-/

namespace Jess

/-- requirements.go:9-14: attributes are `uint8` constants. -/
abbrev Attr := UInt8
/-- requirements.go:10 -/ def Confidentiality : Attr := 0
/-- requirements.go:11 -/ def Integrity : Attr := 1
/-- requirements.go:12 -/ def RecipientAuthentication : Attr := 2
/-- requirements.go:13 -/ def SenderAuthentication : Attr := 3

/-- requirements.go:17-19 `Requirements` (the slice `all`). -/
abbrev Requirements := List Attr

namespace Requirements

/-- requirements.go:22-24 `newEmptyRequirements`. -/
def empty : Requirements := []

/-- requirements.go:27-36 `NewRequirements`. -/
def full : Requirements := [Confidentiality, Integrity, RecipientAuthentication, SenderAuthentication]

/-- requirements.go:44-51 `Has`. -/
def has (r : Requirements) (a : Attr) : Bool := r.any (· == a)

/-- requirements.go:54-59 `Add`. -/
def add (r : Requirements) (a : Attr) : Requirements := if r.has a then r else r ++ [a]

/-- requirements.go:62-70 `Remove`: removes the first occurrence. -/
def remove : Requirements → Attr → Requirements
  | [], _ => []
  | x :: xs, a => if x == a then xs else x :: remove xs a

/-- requirements.go:73-87 `CheckComplianceTo`. -/
def checkComplianceTo (r requirement : Requirements) : Res Unit :=
  if requirement.any (fun a => !r.has a) then .error .requirements else .ok ()

/-- requirements.go:108-123 `ShortString`. -/
def shortString (r : Requirements) : Bytes :=
  (if r.has Confidentiality then b!"C" else []) ++ (if r.has Integrity then b!"I" else []) ++
  (if r.has RecipientAuthentication then b!"R" else []) ++ (if r.has SenderAuthentication then b!"S" else [])

/-- requirements.go:126-141 `SerializeToNoSpec`. -/
def serializeToNoSpec (r : Requirements) : Bytes :=
  (if !r.has Confidentiality then b!"C" else []) ++ (if !r.has Integrity then b!"I" else []) ++
  (if !r.has RecipientAuthentication then b!"R" else []) ++ (if !r.has SenderAuthentication then b!"S" else [])

/-- requirements.go:146-159: the loop of `ParseRequirementsFromNoSpec`. Go iterates over runes; every rune other than the
four ASCII letters is an error, so iterating over bytes has the same result. -/
def parseNoSpecLoop (r : Requirements) : Bytes → Res Requirements
  | [] => .ok r
  | c :: cs =>
    if c = 67 then parseNoSpecLoop (r.remove Confidentiality) cs
    else if c = 73 then parseNoSpecLoop (r.remove Integrity) cs
    else if c = 82 then parseNoSpecLoop (r.remove RecipientAuthentication) cs
    else if c = 83 then parseNoSpecLoop (r.remove SenderAuthentication) cs
    else .error .malformed

/-- requirements.go:144-161 `ParseRequirementsFromNoSpec`. -/
def parseNoSpec (no : Bytes) : Res Requirements := parseNoSpecLoop full no

end Requirements

end Jess
