import Verif.Props.Exchange
import Verif.Props.CmdFiles
import Verif.Props.Library

/-!
# C91: from two key pairs to a file that arrived
-/

namespace Jess

open Requirements

/-- C91. Alice and Bob each have a key pair in their own directory trust store (as `jess generate` leaves it, see C66), export it and import the other's
with `jess export` and `jess import`, successfully. Alice has an envelope that refers to herself as sender, or to nobody, and to Bob as recipient. If
`jess close` then reports success and she has not answered no, Bob's `jess open` of what it wrote succeeds, and what it writes is exactly the content
of the file. (The condition of C10 on the security level; `hp`: the letter has arrived.) -/
theorem file_arrives (pair : Bytes → Bytes → Bytes → Prop) (T T' : CmdEnv) (hP : T.E.P.Correct pair) (hc : T.hc.Sound)
    -- both use the same program; Bob does not answer no, and his output is written
    (hE : T'.E = T.E) (hhc : T'.hc = T.hc) (hno : ¬ SaidNo T) (hyes : ∀ q, T'.answer q = .ok true)
    -- the two trust stores, with a key pair each
    (D : Dsd) (hD : D.Sound) (hL : D.Plain)
    (SA SB : DirStore) (hSA : SA.storageDir ≠ []) (hSB : SB.storageDir ≠ []) (fsA fsB : FS) (mA mB : AbsStore) (hmA : DirRefines D SA fsA mA)
    (hmB : DirRefines D SB fsB mB) (idA schemeA nmA pubA privA idB schemeB nmB pubB privB : Bytes)
    (hA : PairStored T.E.P (SA.getSignet D fsA) idA schemeA nmA pubA privA) (hB : PairStored T.E.P (SB.getSignet D fsB) idB schemeB nmB pubB privB)
    (hpA : pair schemeA pubA privA) (hpB : pair schemeB pubB privB) (htA : ∃ t, getTool schemeA = some t) (htB : ∃ t, getTool schemeB = some t)
    -- the exchange
    (envsA envsB : Bytes → Res Envelope) (textA textB : Bytes)
    (hxA : cmdExport T.E.P D { getSignet := SA.getSignet D fsA, getEnvelope := envsA } idA = .ok textA)
    (hxB : cmdExport T.E.P D { getSignet := SB.getSignet D fsB, getEnvelope := envsB } idB = .ok textB)
    (w1 w2 : WriteEnd) (hw1 : w1 = .done ∨ w1 = .refused) (hw2 : w2 = .done ∨ w2 = .refused) (fsA' fsB' : FS)
    (hiA : importDir T.E.P D SA fsA w1 textB = (fsA', .ok ())) (hiB : importDir T.E.P D SB fsB w2 textA = (fsB', .ok ()))
    (hwc : T.w.store = some (SA.getSignet D fsA')) (hwo : T'.w.store = some (SB.getSignet D fsB'))
    -- the file and the envelope
    (d d1 d1' : Disk) (file name flag : Bytes) (data : Bytes) (e : Envelope) (hin : Reads T d file data) (he : T.envelopes name = .ok e)
    (hsl : e.SuiteLoaded) (hev : e.version = 1) (heo : e.opening = false) (hlev : demandedLevel T.E.cfg 0 ≤ demandedLevel T.E.cfg e.securityLevel)
    (hsec : e.secrets = [])
    (hsend : ∀ k ∈ e.senders, k.id = idA ∧ k.key = [] ∧ (k.scheme = [] ∨ k.scheme = schemeA))
    (hrcpt : ∀ k ∈ e.recipients, k.id = idB ∧ k.key = [] ∧ (k.scheme = [] ∨ k.scheme = schemeB))
    (hreq : ∀ su, getSuite suiteRegistry e.suiteID = some su → ∀ a ∈ T'.reqs.getD Requirements.full, a ∈ su.provides)
    -- closing succeeds
    (h : closeCommand T d [file, b!"with", name] flag = (d1, .ok ()))
    -- the letter arrives
    (p : Bytes) (hp : ∀ target c, NamedBy flag target (file ++ b!".letter") → Outputs T d d1 target c → c.length < 2 ^ 64 ∧ Reads T' d1' p c)
    -- Bob's output
    (flag' target' : Bytes) (ht : (flag' ≠ [] ∧ target' = flag') ∨ (flag' = [] ∧ p = target' ++ b!".letter" ∧ target' ≠ []))
    (hw : Writable T' d1' target') (ho : T'.out = .done) :
    ∃ d2, openCommand T' d1' [p] flag' = (d2, .ok ()) ∧ Outputs T' d1' d2 target' data := by
  obtain ⟨⟨qA, a1⟩, qB, b1⟩ := exchange_stores T.E.P D hD hL SA SB hSA hSB fsA fsB mA mB hmA hmB idA schemeA nmA pubA privA idB schemeB nmB pubB privB hA hB
    envsA envsB textA textB hxA hxB w1 w2 hw1 hw2 fsA' fsB' hiA hiB
  refine close_open_commands_partial T T' d d1 d1' file name flag data e pair hP hc hE hhc hno hyes hin he hsl hev hlev ?_ h p hp flag' target' ht hw ho
  intro s hs
  obtain ⟨h1, h2, h3⟩ := stored_counterparts T.E.P pair T.E.cfg T.w T'.w _ _ hwc hwo { e with suite := none } rfl heo hsec
    (by
      intro k hk
      obtain ⟨k1, k2, k3⟩ := hsend k hk
      rw [k1]
      exact ⟨k2, schemeA, pubA, privA, k3, htA, hpA, qA, b1⟩)
    (by
      intro k hk
      obtain ⟨k1, k2, k3⟩ := hrcpt k hk
      rw [k1]
      exact ⟨k2, schemeB, pubB, privB, k3, htB, hpB, a1, qB⟩) s hs
  exact ⟨h1, h2, h3, hreq _ (library_session rfl hs).suite⟩

/-- The commands of the example, with a store and one envelope. -/
def storyCmd (fs : FS) (e : Envelope) : CmdEnv :=
  { toyCmd e .done true with E := { toySigEnv with P := toyGenPrims }, w := toyGenWorld fs, rng := toyLongRng, reqs := some toyUnsigned }

def toBob (b : Signet) : Envelope := { suiteID := b!"rcpt_v2", recipients := [{ id := b.id, scheme := b!"ECDH-X25519" }] }

/-- Alice and Bob generate their keys, export, import, Alice closes a file for Bob. -/
def storyRun : Bool :=
  match newSignet (toyGenEnv 7 toyDone) toyFS b!"Alice" [] true, newSignet (toyGenEnv 9 toyDone) toyFS b!"Bob" [] true with
  | (fsA, .ok a), (fsB, .ok b) =>
    decide (a.scheme = b!"ECDH-X25519") && decide (b.scheme = b!"ECDH-X25519") &&
    match cmdExport toyGenPrims toyDsd { getSignet := toyDirStore.getSignet toyDsd fsA, getEnvelope := noEnvelopes } a.id,
      cmdExport toyGenPrims toyDsd { getSignet := toyDirStore.getSignet toyDsd fsB, getEnvelope := noEnvelopes } b.id with
    | .ok ta, .ok tb =>
      match importDir toyGenPrims toyDsd toyDirStore fsA .done tb, importDir toyGenPrims toyDsd toyDirStore fsB .done ta with
      | (fsA', .ok ()), (_, .ok ()) =>
        match closeCommand (storyCmd fsA' (toBob b)) (toyDisk [(b!"f", b!"hello")]) [b!"f", b!"with", b!"env"] [] with
        | (d1, .ok ()) => match d1.content b!"f.letter" with
          | some (.file c) => decide (c.length < 1000)
          | _ => false
        | _ => false
      | _, _ => false
    | _, _ => false
  | _, _ => false

/-- All hypotheses of `file_arrives` are met: Bob opens the file that Alice closed, with keys that they generated and exchanged. -/
theorem file_arrives_example : ∃ fsA fsB a b ta tb fsA' fsB' d1,
    newSignet (toyGenEnv 7 toyDone) toyFS b!"Alice" [] true = (fsA, .ok a) ∧ newSignet (toyGenEnv 9 toyDone) toyFS b!"Bob" [] true = (fsB, .ok b) ∧
    cmdExport toyGenPrims toyDsd { getSignet := toyDirStore.getSignet toyDsd fsA, getEnvelope := noEnvelopes } a.id = .ok ta ∧
    cmdExport toyGenPrims toyDsd { getSignet := toyDirStore.getSignet toyDsd fsB, getEnvelope := noEnvelopes } b.id = .ok tb ∧
    importDir toyGenPrims toyDsd toyDirStore fsA .done tb = (fsA', .ok ()) ∧ importDir toyGenPrims toyDsd toyDirStore fsB .done ta = (fsB', .ok ()) ∧
    closeCommand (storyCmd fsA' (toBob b)) (toyDisk [(b!"f", b!"hello")]) [b!"f", b!"with", b!"env"] [] = (d1, .ok ()) ∧
    ∃ c, d1.content b!"f.letter" = some (.file c) ∧
    ∃ d2, openCommand (storyCmd fsB' (toBob b)) (toyDisk [(b!"g.letter", c)]) [b!"g.letter"] [] = (d2, .ok ()) ∧ d2.content b!"g" = some (.file b!"hello") := by
  have h : storyRun = true := by decide +kernel
  unfold storyRun at h
  split at h
  · rename_i fsA a fsB b hgA hgB
    simp only [Bool.and_eq_true, decide_eq_true_eq] at h
    obtain ⟨⟨sA, sB⟩, h⟩ := h
    split at h
    · rename_i ta tb hxA hxB
      split at h
      · rename_i fsA' fsB' hiA hiB
        split at h
        · rename_i d1 hd1
          split at h
          · rename_i c hcc
            have hlen : c.length < 1000 := by simpa using h
            obtain ⟨nmA, pA, mA, rA⟩ := toyGen_pair 7 _ fsA a sA hgA
            obtain ⟨nmB, pB, mB, rB⟩ := toyGen_pair 9 _ fsB b sB hgB
            refine ⟨fsA, fsB, a, b, ta, tb, fsA', fsB', d1, hgA, hgB, hxA, hxB, hiA, hiB, hd1, c, hcc, ?_⟩
            obtain ⟨d2, g1, g2⟩ := file_arrives _ (storyCmd fsA' (toBob b)) (storyCmd fsB' (toBob b)) toyGen_correct soundHeader_sound rfl rfl
              (by rintro ⟨q, hq⟩; cases hq) (fun _ => rfl) toyDsd toyDsd_sound toyDsd_plain toyDirStore toyDirStore (by decide) (by decide)
              fsA fsB mA mB rA rB _ _ nmA _ _ _ _ nmB _ _ pA pB ⟨rfl, rfl, rfl⟩ ⟨rfl, rfl, rfl⟩ ⟨_, rfl⟩ ⟨_, rfl⟩ noEnvelopes noEnvelopes ta tb hxA hxB
              .done .done (.inl rfl) (.inl rfl) fsA' fsB' hiA hiB rfl rfl
              (toyDisk [(b!"f", b!"hello")]) d1 (toyDisk [(b!"g.letter", c)]) b!"f" b!"env" [] b!"hello" (toBob b)
              (.inr ⟨by decide, by show (toyDisk [(b!"f", b!"hello")]).fs (resolve [b!"h"] b!"f") = _; decide +kernel⟩) rfl (.inl rfl) rfl rfl (Int.le_refl _) rfl (by intro k hk; cases hk)
              (by intro k hk; rw [List.mem_singleton.mp hk]; exact ⟨rfl, rfl, Or.inr rfl⟩)
              (by
                intro su hsu
                have h1 : (match getSuite suiteRegistry b!"rcpt_v2" with
                  | some su => decide (∀ a ∈ (some toyUnsigned).getD full, a ∈ su.provides)
                  | none => false) = true := by decide +kernel
                have h2 : getSuite suiteRegistry b!"rcpt_v2" = some su := hsu
                rw [h2] at h1
                exact of_decide_eq_true h1)
              hd1 b!"g.letter"
              (by
                intro target c' hn hout
                rcases hn with ⟨h0, _⟩ | ⟨_, h0⟩
                · exact absurd rfl h0
                · subst h0
                  rcases hout with ⟨h1, _⟩ | ⟨_, _, h2, _⟩
                  · exact absurd h1 (by decide)
                  · have hr : resolve (storyCmd fsA' (toBob b)).cwd (b!"f" ++ b!".letter") = [b!"f.letter", b!"h"] := by
                      show resolve [b!"h"] _ = _
                      decide +kernel
                    rw [hr] at h2
                    have h3 : d1.fs [b!"f.letter", b!"h"] = some (.file c) := hcc
                    rw [h3] at h2
                    cases h2
                    refine ⟨by omega, .inr ⟨by decide, ?_⟩⟩
                    have hr2 : resolve (storyCmd fsB' (toBob b)).cwd b!"g.letter" = [b!"g.letter", b!"h"] := by
                      show resolve [b!"h"] _ = _
                      decide +kernel
                    rw [hr2]
                    rfl)
              [] b!"g" (.inr ⟨rfl, by decide, by decide⟩)
              (by
                right
                have hr2 : resolve (storyCmd fsB' (toBob b)).cwd b!"g" = [b!"g", b!"h"] := by
                  show resolve [b!"h"] _ = _
                  decide +kernel
                rw [hr2]
                refine ⟨by decide, ?_, rfl⟩
                show ((List.lookup b!"g" [(b!"g.letter", c)]).map Node.file) ≠ some .dir
                cases List.lookup b!"g" [(b!"g.letter", c)] <;> simp) rfl
            refine ⟨d2, g1, ?_⟩
            rcases g2 with ⟨h1, _⟩ | ⟨_, _, h2, _⟩
            · exact absurd h1 (by decide)
            · have hr2 : resolve (storyCmd fsB' (toBob b)).cwd b!"g" = [b!"g", b!"h"] := by
                show resolve [b!"h"] _ = _
                decide +kernel
              rw [hr2] at h2
              exact h2
          · cases h
        · cases h
      · cases h
    · cases h
  · cases h

end Jess
