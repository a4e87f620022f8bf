import Verif.Vectors.Run
import Verif.Model.Support
import Verif.Model.Requirements

/-! # The tests of `password_test.go`, `requirements_test.go` and `letter_test.go` on the model -/

namespace Jess.Vectors

open Formats

/-- password_test.go:27-79: passwords and the least level that is expected. -/
def passwordVectors : List (Bytes × Int) :=
  [(b!"asdf", -1),
   (b!"asdfasdf", -1),
   (b!"asdfasdxxxx", -1),
   (b!"asdfasdfasdf", -1),
   (b!"asdfasdfasdf", -1),
   (b!"WgEKCp8c8{bPrG{Zo(Ms97pxaaaaaaaa", -1),
   (b!"aaaaaaaaAAAAAAAA00000000********", -1),
   (b!"AVWHBwmF", 64),
   (b!"AVWHBwmFGt", 76),
   (b!"AVWHBwmFGtLM", 87),
   (b!"AVWHBwmFGtLMGh", 98),
   (b!"AVWHBwmFGtLMGhYf", 110),
   (b!"AVWHBwmFGtLMGhYfPkcyawfmZXRTQdxs", 201),
   (b!"AVWHBwm1", 66),
   (b!"AVWHBwmFG1", 78),
   (b!"AVWHBwmFGtL1", 90),
   (b!"AVWHBwmFGtLMG1", 102),
   (b!"AVWHBwmFGtLMGhY1", 114),
   (b!"AVWHBwmFGtLMGhYfPkcyawfmZXRTQdx1", 209),
   (b!"AVWHBw1_", 67),
   (b!"AVWHBwmF1_", 79),
   (b!"AVWHBwmFGt1_", 91),
   (b!"AVWHBwmFGtLM1_", 103),
   (b!"AVWHBwmFGtLMGh1_", 116),
   (b!"AVWHBwmFGtLMGhYfPkcyawfmZXRTQd1_", 213),
   (b!"AVWHBw1*", 70),
   (b!"AVWHBwmF1*", 83),
   (b!"AVWHBwmFGt1*", 96),
   (b!"AVWHBwmFGtLM1*", 109),
   (b!"AVWHBwmFGtLMGh1*", 122),
   (b!"AVWHBwmFGtLMGhYfPkcyawfmZXRTQd1*", 226),
   (b!"WIw7,mstmsritt...", 122),
   (b!"Wow...doestcst", 100),
   (b!"Ltime@go-inag~faaa!", 140),
   (b!"uTVM,TPw55:utvm,tpwstillsecure", 216),
   (b!"YebGPQuuoxQwyeJMvEWACTLexUUxVBFdHYqqUybBUNfBttCvWQxDdDCdYfgMPCQp", 383),
   (b!"dpPyXmXpbECn6LWuQDJaitTTJguGfRTqNUxWfoHnBKDHvRhjR2WiQ7iDcuRJNnEd", 400),
   (b!"WgEKCp8c8{bPrG{Zo(Ms97pKt3EsR9ycz4R=kMjPp^Uafqxsd2ZTFtkfvnoueKJz", 434),
   (b!"galena-fighter-festival", 132),
   (b!"impotent-drug-dropout-damage", 157),
   (b!"artless-newswire-rill-belgium-marplot", 202),
   (b!"forbade-momenta-spook-sure-devilish-wobbly", 227)]

/-- password_test.go:82-92 -/
theorem password_vectors : ∀ v ∈ passwordVectors, v.2 ≤ passwordLevel v.1 (2 ^ 20) := by
  decide +kernel

/-- password_test.go:27-34: the weak passwords are not only "at least -1". -/
theorem password_weak_vectors : ∀ v ∈ passwordVectors.take 7, passwordLevel v.1 (2 ^ 20) = -1 := by
  decide +kernel

/-- requirements_test.go:14-43 -/
theorem requirements_vectors :
    let a0 := Requirements.full
    let a1 := a0.remove SenderAuthentication
    let a2 := a1.remove RecipientAuthentication
    let a3 := a2.remove Integrity
    let a4 := a3.remove Confidentiality
    let a5 := a4.add SenderAuthentication
    let a6 := a5.add RecipientAuthentication
    let a7 := a6.add Integrity
    let a8 := a7.add Confidentiality
    [a0, a1, a2, a3, a4, a5, a6, a7, a8].map Requirements.serializeToNoSpec =
      [b!"", b!"S", b!"RS", b!"IRS", b!"CIRS", b!"CIR", b!"CI", b!"C", b!""] := by
  decide +kernel

/-- letter_test.go:14-26 -/
def serialSubject : Letter :=
  { version := 1, suiteID := b!"v1", keys := [{ id := b!"a" }, { id := b!"b" }, { id := b!"c" }], nonce := [1, 2, 3], data := [4, 5, 6],
    mac := [7, 8, 9], applyKeys := true }

/-- letter_test.go:11-87: the four letters of the test in both formats, with the JSON header. -/
theorem serialization_vectors :
    let s1 := serialSubject
    let s2 := { s1 with version := 0, suiteID := [] }
    let s3 := { s2 with applyKeys := false }
    let s4 := { s3 with keys := [] }
    ∀ l ∈ [s1, s2, s3, s4], ((l.toFileFormat realHeader).1.bind (letterFromFileFormat realHeader)) = .ok (l, []) ∧
      letterFromWire l.toWire = .ok (l, []) := by
  decide +kernel

end Jess.Vectors
