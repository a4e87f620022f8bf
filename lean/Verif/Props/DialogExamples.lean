import Verif.Props.Dialogs
import Verif.Props.DirStore
import Verif.Lemmas.Toy

/-! # C69: examples and counterexamples -/

namespace Jess

/-- Columns of minimal width. -/
def toyDlg : DlgEnv := { P := toyPrims, cfg := toyConfig, reg := suiteRegistry, pad := fun _ _ _ => 0 }

/-- The walk over a directory with at most the given files. -/
def toyWalk (names : List Bytes) (fs : FS) : List Loc := (names.map (fun n => [n, b!"keys"])).filter (fun l => (fs l).isSome)

/-- A directory store with some entries. -/
def dirWith (ss : List Signet) (es : List Envelope) : FS :=
  (dirRun toyDirStore toyDsd suiteRegistry toyFS (ss.map (.storeSignet .done) ++ es.map (.storeEnvelope .done))).1

/-- The directory trust store with at most the given files. -/
def toyTrust (names : List Bytes) : Trust FS := dirTrust toyDirStore toyDsd suiteRegistry (toyWalk names) .done

/-- A signet for the lists. -/
def listed (id name : Bytes) (pub : Bool) : Signet :=
  { version := 1, id := id, scheme := b!"Ed25519", key := [1, 2], isPublic := pub, info := some { name := name } }

/-- A directory with a key pair, as `jess generate` makes it, and a foreign recipient. -/
def pairFS : FS := dirWith [listed b!"a1" b!"Alice" false, listed b!"a1" b!"Alice" true, listed b!"b2" b!"Bob" true] []
def pairTrust : Trust FS := toyTrust [b!"a1.recipient", b!"a1.signet", b!"b2.recipient"]

/-- The hypotheses of C69 are met: the list of a directory with two signets, and the effect of choosing the second line and "Delete". -/
theorem manage_example :
    (let T := toyTrust [b!"a1.signet", b!"b2.recipient"]
     let fs := dirWith [listed b!"a1" b!"Alice" false, listed b!"b2" b!"Bob" true] []
     T.select fs 0 [] = .ok [listed b!"a1" b!"Alice" false, listed b!"b2" b!"Bob" true] ∧
     signetLines toyDlg [listed b!"a1" b!"Alice" false, listed b!"b2" b!"Bob" true] =
       [b!"Done", b!"Alice   signet   Ed25519   Signing   128 b/s   a1", b!"Bob   recipient   Ed25519   Signing   128 b/s   b2"] ∧
     (manageSignets toyDlg T [(some 2, some 0), (some 0, none)] fs).2 = .ok () ∧
     T.select (manageSignets toyDlg T [(some 2, some 0), (some 0, none)] fs).1 0 [] = .ok [listed b!"a1" b!"Alice" false]) ∧
    PlainSignet (listed b!"a1" b!"Alice" false) ∧ ¬ LooksDone (formatSignetName (listed b!"a1" b!"Alice" false)) := by
  refine ⟨⟨by decide +kernel, by decide +kernel, by decide +kernel, by decide +kernel⟩, ⟨⟨by decide, by decide⟩, ⟨by decide, by decide⟩, ⟨by decide, by decide⟩⟩, ?_⟩
  rintro ⟨rest, h, -⟩
  have := congrArg List.head? h
  revert this
  simp [formatSignetName, listed]

/-- C69 refuted (key pairs). The list shows the recipient and the private signet of a key pair. Choosing the private signet and "Delete"
deletes the recipient; the private signet stays. -/
theorem manage_pair_refuted :
    (signetLines toyDlg [listed b!"a1" b!"Alice" true, listed b!"a1" b!"Alice" false, listed b!"b2" b!"Bob" true])[2]? =
      some b!"Alice   signet   Ed25519   Signing   128 b/s   a1" ∧
    pairTrust.select pairFS 0 [] = .ok [listed b!"a1" b!"Alice" true, listed b!"a1" b!"Alice" false, listed b!"b2" b!"Bob" true] ∧
    (manageSignets toyDlg pairTrust [(some 2, some 0), (some 0, none)] pairFS).2 = .ok () ∧
    pairTrust.select (manageSignets toyDlg pairTrust [(some 2, some 0), (some 0, none)] pairFS).1 0 [] =
      .ok [listed b!"a1" b!"Alice" false, listed b!"b2" b!"Bob" true] := by
  refine ⟨?_, ?_, ?_, ?_⟩ <;> decide +kernel

/-- C69 refuted (blanks in IDs, which the trust stores permit). Choosing the signet "old key" and "Delete" deletes the signet "key". -/
theorem manage_blank_refuted :
    (let T := toyTrust [b!"key.signet", b!"old key.signet"]
     let fs := dirWith [listed b!"key" b!"New" false, listed b!"old key" b!"Old" false] []
     (signetLines toyDlg [listed b!"key" b!"New" false, listed b!"old key" b!"Old" false])[2]? =
       some b!"Old   signet   Ed25519   Signing   128 b/s   old key" ∧
     T.select fs 0 [] = .ok [listed b!"key" b!"New" false, listed b!"old key" b!"Old" false] ∧
     (manageSignets toyDlg T [(some 2, some 0), (some 0, none)] fs).2 = .ok () ∧
     T.select (manageSignets toyDlg T [(some 2, some 0), (some 0, none)] fs).1 0 [] = .ok [listed b!"old key" b!"Old" false]) := by
  refine ⟨?_, ?_, ?_, ?_⟩ <;> decide +kernel

/-- C69 refuted (a signet with the ID "Done"). Choosing "Done" picks the signet. -/
theorem manage_done_refuted :
    (let T := toyTrust [b!"Done.signet"]
     let fs := dirWith [listed b!"Done" b!"D" false] []
     (signetLines toyDlg [listed b!"Done" b!"D" false])[0]? = some b!"Done" ∧
     T.select fs 0 [] = .ok [listed b!"Done" b!"D" false] ∧
     T.select (manageSignets toyDlg T [(some 0, some 0)] fs).1 0 [] = .ok []) := by
  refine ⟨?_, ?_, ?_⟩ <;> decide +kernel

/-- An envelope without signets (for a menu). -/
def named (n : Bytes) : Envelope := { version := 1, name := n, suiteID := b!"sign_v1", suite := getSuite suiteRegistry b!"sign_v1" }

/-- A round in which the user chooses the given line. -/
def choose (i : Nat) : EditRound := { createPw := fun _ _ => .error .env, row := some i, sub := none, suiteRow := none }

/-- C69 refuted (blanks in names of envelopes). Choosing the envelope "my letters" and "Delete" deletes the envelope "my". -/
theorem manage_envelope_refuted :
    (let T := toyTrust [b!"my letters.envelope", b!"my.envelope"]
     let fs := dirWith [] [{ named b!"my" with suite := none }, { named b!"my letters" with suite := none }]
     T.allEnvelopes fs = .ok [named b!"my letters", named b!"my"] ∧
     ((([named b!"my letters", named b!"my"]).mapM envelopeRow).map (envelopeLines toyDlg)).bind (·[1]?) =
       some b!"my letters   sign_v1   provides IS and 128 b/s   " ∧
     (manageEnvelopes toyDlg T toyDsd [(some 1, [choose 11]), (some 0, [])] fs).2 = .ok () ∧
     T.allEnvelopes (manageEnvelopes toyDlg T toyDsd [(some 1, [choose 11]), (some 0, [])] fs).1 = .ok [named b!"my letters"]) ∧
    hasPrefix (named b!"Donets").name b!"Done" = true := by
  refine ⟨⟨?_, ?_, ?_, ?_⟩, ?_⟩ <;> decide +kernel

/-- Choosing the envelope "my" and "Delete" deletes it; the hypotheses of `manage_edits_chosen_partial` are met. -/
theorem manage_envelope_example :
    (let T := toyTrust [b!"my.envelope", b!"your.envelope"]
     let fs := dirWith [] [{ named b!"my" with suite := none }, { named b!"your" with suite := none }]
     T.allEnvelopes fs = .ok [named b!"my", named b!"your"] ∧
     (manageEnvelopes toyDlg T toyDsd [(some 1, [choose 11]), (some 0, [])] fs).2 = .ok () ∧
     T.allEnvelopes (manageEnvelopes toyDlg T toyDsd [(some 1, [choose 11]), (some 0, [])] fs).1 = .ok [named b!"your"]) ∧
    PlainEnvelope (named b!"my") := by
  refine ⟨⟨?_, ?_, ?_⟩, ?_⟩
  · decide +kernel
  · decide +kernel
  · decide +kernel
  · exact ⟨by decide +kernel, ⟨by decide, by decide⟩, by decide, ⟨by decide, by decide⟩, ⟨⟨by decide, by decide⟩, by decide⟩⟩

end Jess
