import Verif.Model.FileSig

/-! # What is printed about signatures: `cmd/format_sig.go` -/

namespace Jess

/-- cmd/format_sig.go:46-51, cmd/cmd-verify.go:218-222, 253-257 who made a signature: a signet without `Info` is dereferenced. -/
def signerText (w : World) (id : Bytes) : Res Bytes :=
  match w.store with
  | none => .error .panic
  | some get =>
    match get id true with
    | .error _ => .ok id
    | .ok s => match s.info with
      | none => .error .panic
      | some i => .ok (i.name ++ b!" (" ++ id ++ b!")")

/-- The loop over the signatures. -/
def signerTexts (w : World) : List Bytes → Res (List Bytes)
  | [] => .ok []
  | id :: ids => do
    let t ← signerText w id
    let ts ← signerTexts w ids
    .ok (t :: ts)

/-- Go standard library `sort.Sort` by key, cmd/format_sig.go:68, 75-79: insertion. (The keys of a map are different, which makes the result
unique.) -/
def insertMeta (p : Bytes × Bytes) : List (Bytes × Bytes) → List (Bytes × Bytes)
  | [] => [p]
  | q :: l => if q.1 < p.1 then q :: insertMeta p l else p :: q :: l

/-- cmd/format_sig.go:64-68 the sorted metadata. -/
def sortMeta : List (Bytes × Bytes) → List (Bytes × Bytes)
  | [] => []
  | p :: l => insertMeta p (sortMeta l)

/-- cmd/format_sig.go:42-53 the signers. -/
def signerPart (w : World) (l : Option Letter) : Res Bytes :=
  match l with
  | none => .ok []
  | some l => do
    let ts ← signerTexts w (l.signatures.map (·.id))
    .ok (10 :: ts.flatMap (fun t => b!"Signed By: " ++ t ++ [10]))

/-- cmd/format_sig.go:55-59 the hash. -/
def hashPart (h : Option LabeledHash) : Bytes :=
  match h with
  | none => []
  | some h => 10 :: b!"Hash Alg: " ++ lhashName h.alg ++ 10 :: b!"Hash Sum: " ++ hexEncode h.digest ++ [10]

/-- cmd/format_sig.go:61-72 the metadata. -/
def metaPart (m : List (Bytes × Bytes)) : Bytes :=
  if m.isEmpty then []
  else 10 :: b!"Metadata:" ++ 10 :: (sortMeta m).flatMap (fun p => b!"    " ++ p.1 ++ b!": " ++ p.2 ++ [10])

/-- cmd/format_sig.go:36-40 the result. The text of an error is given. -/
def resultPart (errText : Err → Bytes) (e : Option Err) : Bytes :=
  match e with
  | none => b!"Verification: OK" ++ [10]
  | some e => b!"Verification FAILED: " ++ errText e ++ [10]

/-- cmd/format_sig.go:35-73 `formatSignature`. -/
def formatSignature (errText : Err → Bytes) (w : World) (fd : FileData) : Res Bytes := do
  let s ← signerPart w fd.signature
  .ok (resultPart errText fd.verificationError ++ s ++ hashPart fd.fileHash ++ metaPart fd.signed.metaData)

/-- cmd/format_sig.go:20-24 the loop over two signatures: the header is repeated. -/
def formatTwo (errText : Err → Bytes) (w : World) : List FileData → Res Bytes
  | [] => .ok []
  | fd :: fds => do
    let s ← formatSignature errText w fd
    let r ← formatTwo errText w fds
    .ok (b!"2 Signatures:" ++ [10, 10, 10] ++ s ++ [10, 10] ++ r)

/-- cmd/format_sig.go:15-25 the signatures: more than two are not shown. -/
def signaturesPart (errText : Err → Bytes) (w : World) (fds : List FileData) : Res Bytes :=
  match fds with
  | [fd] => formatSignature errText w fd
  | [_, _] => formatTwo errText w fds
  | _ => .ok []

/-- cmd/format_sig.go:27-31 the files. -/
def filesPart (filename signame : Bytes) : Bytes :=
  if filename ≠ [] ∨ signame ≠ [] then 10 :: b!"File: " ++ filename ++ 10 :: b!"Sig:  " ++ signame ++ [10] else []

/-- cmd/format_sig.go:12-33 `formatSignatures`. -/
def formatSignatures (errText : Err → Bytes) (w : World) (filename signame : Bytes) (fds : List FileData) : Res Bytes := do
  let s ← signaturesPart errText w fds
  .ok (s ++ filesPart filename signame)

end Jess
