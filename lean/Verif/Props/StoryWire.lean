import Verif.Props.Story
import Verif.Props.WireStream

/-!
# C96: from an exported key to a conversation
-/

namespace Jess

theorem prepSignets_length {P : Prims} {w : World} {level : Int} : ∀ {l out : List Signet} {flag : Bool}, prepSignets P w level flag l = .ok out →
    out.length = l.length
  | [], out, flag, h => by
    simp only [prepSignets] at h
    cases h
    rfl
  | s :: ss, out, flag, h => by
    simp only [prepSignets_cons, bind_ok_iff] at h
    obtain ⟨o, _, os, h2, h3⟩ := h
    cases h3
    rw [List.length_cons, List.length_cons, prepSignets_length h2]

/-- A session has as many recipients as its envelope. -/
theorem session_recipients_length {P : Prims} {cfg : Config} {w : World} {e : Envelope} (hes : e.suite = none) {s : Session}
    (hs : correspondence P cfg w suiteRegistry e = .ok s) : s.env.recipients.length = e.recipients.length := by
  simp only [correspondence, loadSuite, hes, bind_ok_iff] at hs
  obtain ⟨⟨e1, su⟩, h1, h2⟩ := hs
  split at h1
  · cases h1
  · cases h1
    obtain ⟨e2, hp, hn⟩ := h2
    simp only [prepareSignets, bind_ok_iff] at hp
    obtain ⟨a, ha, b, hb, c, hcc, hx⟩ := hp
    cases hx
    obtain ⟨g1, _⟩ := newSession_env hn
    rw [g1]
    exact prepSignets_length hcc

/-- C96. Bob has a key pair in his directory trust store (as `jess generate` leaves it, see C66) and exports it; Alice imports what he exported. Alice
starts a wire session (`Envelope.WireCorrespondence`) with an envelope that refers to Bob as recipient; Bob creates his session from the first letter
he reads (`Letter.WireCorrespondence`), with his trust store. They write their letters to byte streams and read them from there. Then whatever they
send, in whatever interleaving, and for any random numbers, each gets exactly the data that the other one sent, in order, with nothing missing, added
or repeated, and all that has arrived can be read. (The condition of C10 on the security level.) -/
theorem conversation_works (P : Prims) (pair : Bytes → Bytes → Bytes → Prop) (hP : P.Correct pair) (D : Dsd) (hD : D.Sound) (hL : D.Plain) (cfg : Config)
    -- the two trust stores: a key pair in that of Bob
    (SA SB : DirStore) (hSA : SA.storageDir ≠ []) (fsA fsB : FS) (mA : AbsStore) (hmA : DirRefines D SA fsA mA)
    (id scheme nm pub priv : Bytes) (hB : PairStored P (SB.getSignet D fsB) id scheme nm pub priv) (hpB : pair scheme pub priv)
    (htB : ∃ t, getTool scheme = some t)
    -- Alice imports what Bob exported
    (envs : Bytes → Res Envelope) (text : Bytes) (hx : cmdExport P D { getSignet := SB.getSignet D fsB, getEnvelope := envs } id = .ok text)
    (wr : WriteEnd) (hw : wr = .done ∨ wr = .refused) (fsA' : FS) (hi : importDir P D SA fsA wr text = (fsA', .ok ()))
    (wc wo : World) (hwc : wc.store = some (SA.getSignet D fsA')) (hwo : wo.store = some (SB.getSignet D fsB))
    -- Alice starts the conversation
    (e : Envelope) (hes : e.suite = none) (hev : e.version = 1) (heo : e.opening = false)
    (hlev : demandedLevel cfg 0 ≤ demandedLevel cfg e.securityLevel) (hsec : e.secrets = []) (hsend : e.senders = [])
    (hrcpt : ∀ k ∈ e.recipients, k.id = id ∧ k.key = [] ∧ (k.scheme = [] ∨ k.scheme = scheme)) (hrec : e.recipients.length ≤ 255)
    (s : Session) (w : Wire) (hs : wireCorrespondence P cfg wc suiteRegistry e = .ok (s, w)) (n : BNet)
    (hn : BReach P cfg wo suiteRegistry s { client := (s.initState, w) } n) :
    (n.serverGot <+: n.clientSent ∧ n.clientGot <+: n.serverSent) ∧ ServerReads P cfg wo suiteRegistry n ∧ ClientReads P cfg s n := by
  obtain ⟨b1, _⟩ := export_import_same P D hD hL SB fsB id scheme nm pub priv hB envs text hx SA hSA fsA fsA' mA hmA wr hw hi
  obtain ⟨q, qo, q1, q2, q3, q4, q5, q6, q7, q8, q9⟩ := hB.signet
  have hs' := hs
  simp only [wireCorrespondence, bind_ok_iff] at hs'
  obtain ⟨s1, c1, w1, _, c3⟩ := hs'
  cases c3
  obtain ⟨⟨_, _, i1⟩, _, i2⟩ := stored_counterparts P pair cfg wc wo _ _ hwc hwo e hes heo hsec (by rw [hsend]; intro k hk; cases hk)
    (by
      intro k hk
      obtain ⟨k1, k2, k3⟩ := hrcpt k hk
      rw [k1]
      exact ⟨k2, scheme, pub, priv, k3, htB, hpB, b1, ⟨q, qo, q1, q2, q3, q4, q5, q7, q8, q9⟩⟩) s c1
  obtain ⟨r1, r2⟩ := wire_stream_delivery P pair hP cfg wc wo e hes hev s w hs hlev i1 (by rw [session_recipients_length hes c1]; exact hrec) i2 false n hn
  refine ⟨⟨?_, ?_⟩, r1, r2⟩
  · rcases r1 with ⟨h, _⟩ | ⟨d, ds, _, _, h, _⟩
    · rw [h]; exact List.prefix_refl _
    · rw [h]; exact List.prefix_append _ _
  · rcases r2 with ⟨h, _⟩ | ⟨d, ds, _, _, h, _⟩
    · rw [h]; exact List.prefix_refl _
    · rw [h]; exact List.prefix_append _ _

/-! ## Example -/

def toBobWire (b : Signet) : Envelope := { suiteID := b!"w2", recipients := [{ id := b.id, scheme := b!"ECDH-X25519" }] }

/-- Bob generates and exports his key, Alice imports it, they talk. -/
def talkRun : Bool :=
  match newSignet (toyGenEnv 9 toyDone) toyFS b!"Bob" [] true with
  | (fsB, .ok b) =>
    decide (b.scheme = b!"ECDH-X25519") &&
    match cmdExport toyGenPrims toyDsd { getSignet := toyDirStore.getSignet toyDsd fsB, getEnvelope := noEnvelopes } b.id with
    | .ok tb =>
      match importDir toyGenPrims toyDsd toyDirStore toyFS .done tb with
      | (fsA', .ok ()) =>
        match wireCorrespondence toyGenPrims toyConfig (toyGenWorld fsA') suiteRegistry (toBobWire b) with
        | .ok (s, w) =>
          match BNet.runs toyGenPrims toyConfig (toyGenWorld fsB) suiteRegistry s toyLongRng { client := (s.initState, w) } toyTalk with
          | some n => decide (n.serverGot = [b!"one", b!"two", b!"five", b!"six"] ∧ n.clientGot = [b!"three", b!"four"] ∧ n.c2s ≠ [] ∧ n.s2c ≠ [])
          | none => false
        | .error _ => false
      | _ => false
    | _ => false
  | _ => false

/-- All hypotheses of `conversation_works` are met, with a conversation after the complete handshake. -/
theorem conversation_example : ∃ fsB b tb fsA' s w n,
    newSignet (toyGenEnv 9 toyDone) toyFS b!"Bob" [] true = (fsB, .ok b) ∧
    cmdExport toyGenPrims toyDsd { getSignet := toyDirStore.getSignet toyDsd fsB, getEnvelope := noEnvelopes } b.id = .ok tb ∧
    importDir toyGenPrims toyDsd toyDirStore toyFS .done tb = (fsA', .ok ()) ∧
    wireCorrespondence toyGenPrims toyConfig (toyGenWorld fsA') suiteRegistry (toBobWire b) = .ok (s, w) ∧
    BReach toyGenPrims toyConfig (toyGenWorld fsB) suiteRegistry s { client := (s.initState, w) } n ∧
    n.serverGot = [b!"one", b!"two", b!"five", b!"six"] ∧ n.clientGot = [b!"three", b!"four"] ∧ n.c2s ≠ [] ∧ n.s2c ≠ [] ∧
    ServerReads toyGenPrims toyConfig (toyGenWorld fsB) suiteRegistry n ∧ ClientReads toyGenPrims toyConfig s n := by
  have h : talkRun = true := by decide +kernel
  unfold talkRun at h
  split at h
  · rename_i fsB b hgB
    simp only [Bool.and_eq_true, decide_eq_true_eq] at h
    obtain ⟨sB, h⟩ := h
    split at h
    · rename_i tb hxB
      split at h
      · rename_i fsA' hiA
        split at h
        · rename_i s w hs
          split at h
          · rename_i n hn
            obtain ⟨g1, g2, g3, g4⟩ := of_decide_eq_true h
            obtain ⟨nmB, pB, _, _⟩ := toyGen_pair 9 _ fsB b sB hgB
            have hr := bruns_reach .refl hn
            obtain ⟨_, r1, r2⟩ := conversation_works toyGenPrims _ toyGen_correct toyDsd toyDsd_sound toyDsd_plain toyConfig toyDirStore toyDirStore (by decide)
              toyFS fsB .empty toyDir_empty b.id _ nmB _ _ pB ⟨rfl, rfl, rfl⟩ ⟨_, rfl⟩ noEnvelopes tb hxB .done (.inl rfl) fsA' hiA
              (toyGenWorld fsA') (toyGenWorld fsB) rfl rfl (toBobWire b) rfl rfl rfl (Int.le_refl _) rfl rfl
              (by intro k hk; rw [List.mem_singleton.mp hk]; exact ⟨rfl, rfl, Or.inr rfl⟩) (by show 1 ≤ 255; decide) s w hs n hr
            exact ⟨fsB, b, tb, fsA', s, w, n, hgB, hxB, hiA, hs, hr, g1, g2, g3, g4, r1, r2⟩
          · cases h
        · cases h
      · cases h
    · cases h
  · cases h

end Jess
