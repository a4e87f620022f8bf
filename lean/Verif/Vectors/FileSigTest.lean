import Verif.Vectors.Run
import Verif.Model.Json

/-! # The tests of `filesig/` on the model

The texts are those of `filesig/text_test.go`, `filesig/format_armor_test.go` and `filesig/json_test.go`; the checksums and signatures
in them were made by the real program. -/

namespace Jess.Vectors

open Formats

/-! ## filesig/text_test.go -/

/-- filesig/text_test.go:14-19 -/
def shText : Bytes :=
  b!"#!/bin/bash\n" ++
  b!"# Initial\n" ++
  b!"# Comment\n" ++
  b!"# Block\n" ++
  b!"\n" ++
  b!"do_something()"

/-- filesig/text_test.go:23-30 -/
def shAfterComment : Bytes :=
  b!"#!/bin/bash\n" ++
  b!"# Initial\n" ++
  b!"# Comment\n" ++
  b!"# Block\n" ++
  b!"# jess-checksum: ZwngYUfUBeUn99HSdrNxkWSNjqrgZuSpVrexeEYttBso5o\n" ++
  b!"\n" ++
  b!"do_something()\n"

/-- filesig/text_test.go:56-63 -/
def shAtTop : Bytes :=
  b!"# jess-checksum: ZwngYUfUBeUn99HSdrNxkWSNjqrgZuSpVrexeEYttBso5o\n" ++
  b!"#!/bin/bash\n" ++
  b!"# Initial\n" ++
  b!"# Comment\n" ++
  b!"# Block\n" ++
  b!"\n" ++
  b!"do_something()\n"

/-- filesig/text_test.go:75-83 -/
def shAtBottom : Bytes :=
  b!"#!/bin/bash\n" ++
  b!"# Initial\n" ++
  b!"# Comment\n" ++
  b!"# Block\n" ++
  b!"\n" ++
  b!"do_something()\n" ++
  b!"\n" ++
  b!"# jess-checksum: ZwngYUfUBeUn99HSdrNxkWSNjqrgZuSpVrexeEYttBso5o\n"

/-- filesig/text_test.go:95-104 -/
def shMulti : Bytes :=
  b!"# jess-checksum: PTNktssvYCYjZXLFL2QoBk7DYoSz1qF7DJd5XNvtptd41B\n" ++
  b!"#!/bin/bash\n" ++
  b!"# Initial\n" ++
  b!"# Comment\n" ++
  b!"# Block\n" ++
  b!"# jess-checksum: Cy2TyVDjEStUqX3wCzCCKTfy228KaQK25ZDbHNmKiF8SPf\n" ++
  b!"\n" ++
  b!"do_something()\n" ++
  b!"\n" ++
  b!"# jess-checksum: YdgJFzuvFduk1MwRjZ2JkWQ6tCE1wkjn9xubSggKAdJSX5\n"

/-- filesig/text_test.go:110-120 -/
def shMultiOutput : Bytes :=
  b!"#!/bin/bash\n" ++
  b!"# Initial\n" ++
  b!"# Comment\n" ++
  b!"# Block\n" ++
  b!"# jess-checksum: Cy2TyVDjEStUqX3wCzCCKTfy228KaQK25ZDbHNmKiF8SPf\n" ++
  b!"# jess-checksum: PTNktssvYCYjZXLFL2QoBk7DYoSz1qF7DJd5XNvtptd41B\n" ++
  b!"# jess-checksum: YdgJFzuvFduk1MwRjZ2JkWQ6tCE1wkjn9xubSggKAdJSX5\n" ++
  b!"# jess-checksum: ZwngYUfUBeUn99HSdrNxkWSNjqrgZuSpVrexeEYttBso5o\n" ++
  b!"\n" ++
  b!"do_something()\n"

/-- filesig/text_test.go:127-137 -/
def shFailing : Bytes :=
  b!"#!/bin/bash\n" ++
  b!"# Initial\n" ++
  b!"# Comment\n" ++
  b!"# Block\n" ++
  b!"# jess-checksum: Cy2TyVDjEStUqX3wCzCCKTfy228KaQK25ZDbHNmKiF8SPf\n" ++
  b!"# jess-checksum: PTNktssvYCYjZXLFL2QoBk7DYoSz1qF7DJd5XNvtptd41B\n" ++
  b!"# jess-checksum: YdgJFzuvFduk1MwRjZ2JkWQ6tCE1wkjn9xubSggKAdJSX5\n" ++
  b!"# jess-checksum: ZwngYUfUBeUn99HSdrNxkWSNjaaaaaaaaaaaaaaaaaaaaa\n" ++
  b!"\n" ++
  b!"do_something()\n"

/-- filesig/text_test.go:32-91: a checksum is added at the three places; it is found, also with white space around the text. -/
theorem text_checksum_vectors :
    addTextChecksum realHashes shText b!"#" .afterComment = .ok shAfterComment ∧
    addTextChecksum realHashes shText b!"#" .top = .ok shAtTop ∧
    addTextChecksum realHashes shText b!"#" .bottom = .ok shAtBottom ∧
    (∀ t ∈ [shAfterComment, b!"\n\n  \r\n" ++ shAfterComment, shAfterComment ++ b!"\r\n \n \n", shAtTop, shAtBottom, shMulti],
      verifyTextChecksum realHashes t b!"#" = .ok ()) := by
  decide +kernel

/-- filesig/text_test.go:110-138: several checksums, and a wrong one. -/
theorem text_checksum_multi_vectors :
    addTextChecksum realHashes shMulti b!"#" .afterComment = .ok shMultiOutput ∧
    verifyTextChecksum realHashes shMultiOutput b!"#" = .ok () ∧
    verifyTextChecksum realHashes shFailing b!"#" ≠ .ok () := by
  decide +kernel

/-- filesig/text_test.go:140-179 -/
theorem line_end_vectors :
    lineEndOf [] = b!"\n" ∧ lineEndOf b!"\n" = b!"\n" ∧ lineEndOf b!"\r\n" = b!"\r\n" ∧ lineEndOf b!"abc\n" = b!"\n" ∧
    lineEndOf b!"abc\r\n" = b!"\r\n" ∧ lineEndOf b!"abc\nabc\r\n" = b!"\n" ∧ lineEndOf b!"abc\r\nabc\n" = b!"\r\n" := by
  decide +kernel

/-! ## filesig/format_armor_test.go -/

/-- filesig/format_armor_test.go:12 -/
def oneKey : Bytes :=
  b!"7KoUBdrRfF6drrPvKianoGfEXTQFCS5wDbfQyc87VQnYApPckRS8SfrrmAXZhV1JgKfnh44ib9nydQVEDRJiZArV22RqMfPrJmQdoAsE7zuzPRSrku8yF7zfnEv46X5GsmgfdSDrFMdG7XJd3fdaxStYCXTYDS5R"

/-- filesig/format_armor_test.go:14 -/
def oneData : Bytes :=
  b!"The quick brown fox jumps over the lazy dog"

/-- filesig/format_armor_test.go:21-30 -/
def oneSignature : Bytes :=
  b!"\n" ++
  b!"-----BEGIN JESS SIGNATURE-----\n" ++
  b!"Q6VnVmVyc2lvbgFnU3VpdGVJRGdzaWduX3YxZU5vbmNlRA40a/BkRGF0YVhqTYOr\n" ++
  b!"TGFiZWxlZEhhc2jEIhkgAXGM7DXNPXlt0AAg4L/stHOtI0V9Bjt17/KcD/ouWKmo\n" ++
  b!"U2lnbmVkQXTW/2LH/ueoTWV0YURhdGGComlkrXJlc291cmNlL3BhdGindmVyc2lv\n" ++
  b!"bqUwLjAuMWpTaWduYXR1cmVzgaNmU2NoZW1lZ0VkMjU1MTliSURwZmlsZXNpZy10\n" ++
  b!"ZXN0LWtleWVWYWx1ZVhA4b1kfIJF7do6OcJnemQ5mtj/ZyMFJWWTmD1W5KvkpZac\n" ++
  b!"2AP5f+dDJhzWBHsoSXTCl6uA3DA3+RbABMYAZn6eDg\n" ++
  b!"-----END JESS SIGNATURE-----\n"

/-- filesig/format_armor_test.go: testFileSigFormat1 -/
def sigFormat1 : Bytes :=
  b!"TGFiZWxlZEhhc2jEIhkgAXGM7DXNPXlt0AAg4L\n" ++
  b!"-----BEGIN JESS SIGNATURE-----\n" ++
  b!"Q6VnVmVyc2lvbgFnU3VpdGVJRGdzaWduX3YxZU5vbmNlRA40a/BkRGF0YVhqTYOr\n" ++
  b!"TGFiZWxlZEhhc2jEIhkgAXGM7DXNPXlt0AAg4L/stHOtI0V9Bjt17/KcD/ouWKmo\n" ++
  b!"U2lnbmVkQXTW/2LH/ueoTWV0YURhdGGComlkrXJlc291cmNlL3BhdGindmVyc2lv\n" ++
  b!"bqUwLjAuMWpTaWduYXR1cmVzgaNmU2NoZW1lZ0VkMjU1MTliSURwZmlsZXNpZy10\n" ++
  b!"ZXN0LWtleWVWYWx1ZVhA4b1kfIJF7do6OcJnemQ5mtj/ZyMFJWWTmD1W5KvkpZac\n" ++
  b!"2AP5f+dDJhzWBHsoSXTCl6uA3DA3+RbABMYAZn6eDg\n" ++
  b!"-----END JESS SIGNATURE-----\n" ++
  b!"\n" ++
  b!"-----END JESS SIGNATURE-----\n" ++
  b!"-----BEGIN JESS SIGNATURE-----\n" ++
  b!"Q6VnVmVyc2lvbgFnU3VpdGVJRGdzaWduX3YxZU5vbmNlRA40a/BkRGF0YVhqTYOr\n" ++
  b!"\tTGFiZWxlZEhhc2jEIhkgAXGM7DXNPXlt0AAg4L/stHOtI0V9Bjt17/KcD/ouWKmo\n" ++
  b!"\tU2lnbmVkQXTW/2LH/ueoTWV0YURhdGGComlk\n" ++
  b!"rXJlc291cmNlL3BhdGindmVyc2lvbqUwLjAuMWpTaWduYXR1cmVzgaNmU2NoZW1lZ0VkMjU1MTliSURwZmlsZXNpZy10\n" ++
  b!"\tZXN0LWtleWVWYWx1ZVhA4b1kfIJF7do6OcJnemQ5mtj/ZyMFJWWTmD1W5KvkpZac\n" ++
  b!"2AP5f+dDJhzWBHsoSXTCl6uA3DA3+RbABMYAZn6eDg\n" ++
  b!"-----END JESS SIGNATURE-----\n" ++
  b!"end"

/-- filesig/format_armor_test.go: testFileSigFormat2 -/
def sigFormat2 : Bytes :=
  b!"test data 1\n" ++
  b!"-----BEGIN JESS SIGNATURE-----\n" ++
  b!"invalid sig\n" ++
  b!"-----END JESS SIGNATURE-----\n" ++
  b!"test data 2"

/-- filesig/format_armor_test.go: testFileSigFormat3 -/
def sigFormat3 : Bytes :=
  b!"test data 1\n" ++
  b!"-----BEGIN JESS SIGNATURE-----\n" ++
  b!"invalid sig\n" ++
  b!"-----END JESS SIGNATURE-----\n" ++
  b!"test data 2\n" ++
  b!"-----BEGIN JESS SIGNATURE-----\n" ++
  b!"Q6VnVmVyc2lvbgFnU3VpdGVJRGdzaWduX3YxZU5vbmNlRA40a/BkRGF0YVhqTYOr\n" ++
  b!"TGFiZWxlZEhhc2jEIhkgAXGM7DXNPXlt0AAg4L/stHOtI0V9Bjt17/KcD/ouWKmo\n" ++
  b!"U2lnbmVkQXTW/2LH/ueoTWV0YURhdGGComlkrXJlc291cmNlL3BhdGindmVyc2lv\n" ++
  b!"bqUwLjAuMWpTaWduYXR1cmVzgaNmU2NoZW1lZ0VkMjU1MTliSURwZmlsZXNpZy10\n" ++
  b!"ZXN0LWtleWVWYWx1ZVhA4b1kfIJF7do6OcJnemQ5mtj/ZyMFJWWTmD1W5KvkpZac\n" ++
  b!"2AP5f+dDJhzWBHsoSXTCl6uA3DA3+RbABMYAZn6eDg\n" ++
  b!"-----END JESS SIGNATURE-----"

/-- filesig/format_armor_test.go: testFileSigFormat4 -/
def sigFormat4 : Bytes :=
  b!"test data 1\n" ++
  b!"test data 2\n" ++
  b!"-----BEGIN JESS SIGNATURE-----\n" ++
  b!"Q6VnVmVyc2lvbgFnU3VpdGVJRGdzaWduX3YxZU5vbmNlRA40a/BkRGF0YVhqTYOr\n" ++
  b!"TGFiZWxlZEhhc2jEIhkgAXGM7DXNPXlt0AAg4L/stHOtI0V9Bjt17/KcD/ouWKmo\n" ++
  b!"U2lnbmVkQXTW/2LH/ueoTWV0YURhdGGComlkrXJlc291cmNlL3BhdGindmVyc2lv\n" ++
  b!"bqUwLjAuMWpTaWduYXR1cmVzgaNmU2NoZW1lZ0VkMjU1MTliSURwZmlsZXNpZy10\n" ++
  b!"ZXN0LWtleWVWYWx1ZVhA4b1kfIJF7do6OcJnemQ5mtj/ZyMFJWWTmD1W5KvkpZac\n" ++
  b!"2AP5f+dDJhzWBHsoSXTCl6uA3DA3+RbABMYAZn6eDg\n" ++
  b!"-----END JESS SIGNATURE-----"

/-- filesig/format_armor_test.go:16-19 -/
def oneMeta : List (Bytes × Bytes) := [(b!"id", b!"resource/path"), (b!"version", b!"0.0.1")]

/-- The key of the test, from its text. -/
def oneSignet : Res Signet := signetFromBase58 realPrims realDsd oneKey

/-- A trust store with the recipients of some signets. -/
def storeOf (l : List (Res Signet)) : World :=
  { store := some fun id recipient =>
      match (l.filterMap (fun r => (r.bind (Signet.asRecipient realPrims)).toOption)).find? (fun s => s.id == id) with
      | some s => if recipient then .ok s else .error .signetNotFound
      | none => .error .signetNotFound }

set_option maxRecDepth 100000 in
/-- filesig/format_armor_test.go:95-117: the saved signature, with the key of the test. -/
theorem armor_vectors :
    oneSignet.map (·.id) = .ok b!"filesig-test-key" ∧
    (parseSigFile realCodec.toLetterCodec oneSignature).1.length = 1 ∧ (parseSigFile realCodec.toLetterCodec oneSignature).2 = none ∧
    (verifyFile realSigEnv (storeOf [oneSignet]) (.file oneData) (some oneSignature) oneMeta).2 = none ∧
    (verifyFile realSigEnv (storeOf [oneSignet]) (.file (oneData ++ b!".")) (some oneSignature) oneMeta).2 = some .integrity ∧
    (verifyFile realSigEnv (storeOf [oneSignet]) (.file oneData) (some oneSignature) [(b!"version", b!"0.0.2")]).2 = some .malformed ∧
    (verifyFile realSigEnv (storeOf []) (.file oneData) (some oneSignature) oneMeta).2 = some .signetNotFound := by
  decide +kernel

set_option maxRecDepth 100000 in
/-- filesig/format_armor_test.go:55-66: signing again with the same key and nonce at the same time gives the saved signature. -/
theorem armor_reproduced :
    (do let s ← oneSignet
        let h ← lhashDigest realHashes 25 oneData
        let (l, _) ← signFileData realSigEnv { store := some fun _ _ => .error .signetNotFound } (noncely [0x0e, 0x34, 0x6b, 0xf0]) 1657274087 h oneMeta
          { suiteID := b!"sign_v1", senders := [s], securityLevel := 0 }
        makeSigSection realCodec.toLetterCodec l) = .ok (trimSpace oneSignature) := by
  decide +kernel

set_option maxRecDepth 100000 in
/-- filesig/format_armor_test.go:178-206 -/
theorem armor_format_vectors :
    (parseSigFile realCodec.toLetterCodec sigFormat1).2 = none ∧
    (match parseSigFile realCodec.toLetterCodec sigFormat1 with
      | ([a, b], _) => decide (a = b ∧ addToSigFile realCodec.toLetterCodec a sigFormat2 false = .ok sigFormat3 ∧
          addToSigFile realCodec.toLetterCodec a sigFormat2 true = .ok sigFormat4)
      | _ => false) = true := by
  decide +kernel

/-! ## filesig/json_test.go -/

def quoted (s : Bytes) : Bytes := 34 :: s ++ [34]
def unquoted (s : Bytes) : Bytes := (s.drop 1).dropLast

def jelemOf : Val → Option JElem
  | .str s => some (.str (quoted s))
  | .num n => some (.other (decimal 20 n))
  | _ => none

def jvalOf : Val → Option JVal
  | .str s => some (.str (quoted s))
  | .num n => some (.other (decimal 20 n))
  | .arr l => (l.mapM jelemOf).map .arr
  | _ => none

def jdocOf : Val → Option JDoc
  | .obj l => (l.mapM fun (k, v) => (jvalOf v).map fun v => (quoted k, v)).map .obj
  | _ => none

def jelemText : JElem → Bytes
  | .str r => r
  | .other r => r

def jvalText : JVal → Bytes
  | .str r => r
  | .other r => r
  | .arr l => 91 :: joinBytes b!", " (l.map jelemText) ++ [93]

/-- github.com/tidwall/pretty with the options of filesig/json.go:213-218, for flat documents with short lines. -/
def jdocText : JDoc → Bytes
  | .obj ms => b!"{\n" ++ joinBytes b!",\n" (ms.map fun (k, v) => 32 :: k ++ b!": " ++ jvalText v) ++ b!"\n}\n"
  | .other r => r ++ [10]

def insertMember (m : Bytes × JVal) : List (Bytes × JVal) → List (Bytes × JVal)
  | [] => [m]
  | x :: l => if strLe m.1 x.1 then m :: x :: l else x :: insertMember m l

/-- The JSON libraries, for flat documents of strings, numbers and arrays of them. -/
def realJson : JsonLib where
  parse b := (jsonParse b).bind jdocOf
  pretty := jdocText
  sortKeys d := match d with | .obj ms => .obj (ms.foldr insertMember []) | d => d
  unesc := unquoted
  esc := quoted
  setOther _ _ _ := .error .unsupported
  newFirst := true

/-- filesig/json_test.go:17 -/
def jsDoc : Bytes :=
  b!"{\"a\": \"b\", \"c\": 1}"

/-- filesig/json_test.go:21-26 -/
def jsChecksum : Bytes :=
  b!"{\n" ++
  b!" \"_jess-checksum\": \"ZwtAd75qvioh6uf1NAq64KRgTbqeehFVYmhLmrwu1s7xJo\",\n" ++
  b!" \"a\": \"b\",\n" ++
  b!" \"c\": 1\n" ++
  b!"}\n"

/-- filesig/json_test.go:36-39 -/
def jsChecksum2 : Bytes :=
  b!"{\n" ++
  b!"\t\"c\": 1,     \"a\":\"b\",\n" ++
  b!"\t\t\"_jess-checksum\": \"ZwtAd75qvioh6uf1NAq64KRgTbqeehFVYmhLmrwu1s7xJo\"\n" ++
  b!"\t}"

/-- filesig/json_test.go:45-54 -/
def jsMulti : Bytes :=
  b!"{\n" ++
  b!"\t\t\"_jess-checksum\": [\n" ++
  b!"\t\t\t\"PTV7S3Ca81aRk2kdNw7q2RfjLfEdPPT5Px5d211nhZedZC\",\n" ++
  b!"\t\t\t\"PTV7S3Ca81aRk2kdNw7q2RfjLfEdPPT5Px5d211nhZedZC\",\n" ++
  b!"\t\t\t\"CyDGH55DZUwa556DiYztMXaKZVBDjzWeFETiGmABMbvC3V\"\n" ++
  b!"\t\t],\n" ++
  b!"\t\t\"a\": \"b\",\n" ++
  b!"\t\t\"c\": 1\n" ++
  b!"\t }\n" ++
  b!"\t "

/-- filesig/json_test.go:60-65 -/
def jsMultiOutput : Bytes :=
  b!"{\n" ++
  b!" \"_jess-checksum\": [\"CyDGH55DZUwa556DiYztMXaKZVBDjzWeFETiGmABMbvC3V\", \"PTV7S3Ca81aRk2kdNw7q2RfjLfEdPPT5Px5d211nhZedZC\", \"ZwtAd75qvioh6uf1NAq64KRgTbqeehFVYmhLmrwu1s7xJo\"],\n" ++
  b!" \"a\": \"b\",\n" ++
  b!" \"c\": 1\n" ++
  b!"}\n"

/-- filesig/json_test.go:145 -/
def jsKey2 : Bytes :=
  b!"sender:2ZxXzzL3mc3mLPizTUe49zi8Z3NMbDrmmqJ4V9mL4AxefZ1o8pM8wPMuK2uW12Mvd3EJL9wsKTn14BDuqH2AtucvHTAkjDdZZ5YA9Azmji5tLRXmypvSxEj2mxXU3MFXBVdpzPdwRcE4WauLo9ZfQWebznvnatVLwuxmeo17tU2pL7"

/-- filesig/json_test.go:178 -/
def jsKey3 : Bytes :=
  b!"sender:2ZxXzzL3mc3mLPizTUe49zi8Z3NMbDrmmqJ4V9mL4AxefZ1o8pM8wPMuRAXdZNaPX3B96bhGCpww6TbXJ6WXLHoLwLV196cgdm1BurfTMdjUPa4PUj1KgHuM82b1p8ezQeryzj1CsjeM8KRQdh9YP87gwKpXNmLW5GmUyWG5KxzZ7W"

/-- filesig/json_test.go:157-160 -/
def jsSigned : Bytes :=
  b!"{\n" ++
  b!"\t\t\t\"c\":1,\"a\":\"b\",\n" ++
  b!"\t\t\t\"_jess-signature\": \"Q6RnVmVyc2lvbgFnU3VpdGVJRGdzaWduX3YxZU5vbmNlRK6e7JhqU2lnbmF0dXJlc4GjZlNjaGVtZWdFZDI1NTE5YklEeBl0ZXN0LXN0YXRpYy1rZXktanNvbnNpZy0xZVZhbHVlWEBPEbeM4_CTl3OhNT2z74h38jIZG5R7BBLDFd6npJ3E-4JqM6TaSMa-2pPEBf3fDNuikR3ak45SekC6Z10uWiEB\"\n" ++
  b!"\t\t}"

/-- filesig/json_test.go:191-199 -/
def jsMultiSigned : Bytes :=
  b!"{\n" ++
  b!"\t\t\t\"_jess-signature\": [\n" ++
  b!"\t\t\t\t\"Q6RnVmVyc2lvbgFnU3VpdGVJRGdzaWduX3YxZU5vbmNlRK6e7JhqU2lnbmF0dXJlc4GjZlNjaGVtZWdFZDI1NTE5YklEeBl0ZXN0LXN0YXRpYy1rZXktanNvbnNpZy0xZVZhbHVlWEBPEbeM4_CTl3OhNT2z74h38jIZG5R7BBLDFd6npJ3E-4JqM6TaSMa-2pPEBf3fDNuikR3ak45SekC6Z10uWiEB\",\n" ++
  b!"\t\t\t\t\"Q6RnVmVyc2lvbgFnU3VpdGVJRGdzaWduX3YxZU5vbmNlRC32oylqU2lnbmF0dXJlc4GjZlNjaGVtZWdFZDI1NTE5YklEeBl0ZXN0LXN0YXRpYy1rZXktanNvbnNpZy0yZVZhbHVlWEDYVHeKaJvzZPOkgC6Tie6x70bNm2jtmJmAwDFDcBL1ddK7pVSefyAPg47xMO7jeucP5bw754P6CdrR5gyANJkM\"\n" ++
  b!"\t\t\t],\n" ++
  b!"\t\t\t\"a\": \"b\",\n" ++
  b!"\t\t\t\"c\": 1\n" ++
  b!"\t\t }\n" ++
  b!"\t\t "

/-- filesig/json_test.go:14-75 -/
theorem json_checksum_vectors :
    addJSONChecksum realJson realHashes jsDoc = .ok jsChecksum ∧
    (∀ t ∈ [jsChecksum, jsChecksum2, jsMulti, jsMultiOutput], verifyJSONChecksum realJson realHashes t = .ok ()) ∧
    addJSONChecksum realJson realHashes jsMulti = .ok jsMultiOutput := by
  decide +kernel

/-- filesig/json_test.go:143-153, 176-187 -/
def jsKeys : List (Res Signet) := [jsKey2, jsKey3].map (signetFromText realPrims realDsd .sender)

set_option maxRecDepth 100000 in
/-- filesig/json_test.go:155-204: the prepared documents, with the keys of the test; and with another key in the store, or a change. -/
theorem json_signature_vectors :
    verifyJSONSignature realJson realSigEnv (storeOf jsKeys) jsSigned = .ok () ∧
    verifyJSONSignature realJson realSigEnv (storeOf jsKeys) jsMultiSigned = .ok () ∧
    verifyJSONSignature realJson realSigEnv (storeOf (jsKeys.take 1)) jsMultiSigned = .error .signetNotFound ∧
    verifyJSONSignature realJson realSigEnv (storeOf jsKeys) (b!"{\"b\": 1," ++ (skipWs jsSigned).drop 1) = .error .signature := by
  decide +kernel

end Jess.Vectors
