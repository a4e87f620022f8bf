import Verif.Props.Story
import Verif.Props.Promises
import Verif.Props.ReportVerify

/-!
# C95: from a key pair to a verified signature of a file
-/

namespace Jess

open Requirements

/-- The senders of a session for an envelope that refers to stored senders have the IDs of the envelope. -/
theorem sender_ids {P : Prims} {cfg : Config} {w : World} {e : Envelope} (hes : e.suite = none) (heo : e.opening = false)
    (get : Bytes → Bool → Res Signet) (hw : w.store = some get) {s : Session} (hs : correspondence P cfg w suiteRegistry e = .ok s)
    (hsend : ∀ k ∈ e.senders, k.key = [] ∧ k.scheme ≠ schemeKey ∧ k.scheme ≠ schemePassword ∧ ∀ n, get k.id false = .ok n → n.id = k.id) :
    s.env.senders.map (·.id) = e.senders.map (·.id) := by
  simp only [correspondence, loadSuite, hes, bind_ok_iff] at hs
  obtain ⟨⟨e1, su⟩, h1, h2⟩ := hs
  split at h1
  · cases h1
  · cases h1
    obtain ⟨e2, hp, hn⟩ := h2
    simp only [prepareSignets, bind_ok_iff] at hp
    obtain ⟨a, ha, b, hb, c, hcc, hx⟩ := hp
    cases hx
    obtain ⟨g1, _⟩ := newSession_env hn
    simp only [heo, Bool.not_false] at hb
    rw [prepSignets_all2 _ _ _ _ _ _ (.inl rfl)] at hb
    rw [g1]
    refine (All2.map_eq (f := fun k : Signet => k.id) (g := fun k : Signet => k.id) (hb.mono_mem fun k hk o _ hko => ?_)).symm
    obtain ⟨k1, k2, k3, k4⟩ := hsend k hk
    obtain ⟨get', n', f1, f2, _, _, f5⟩ := prepOne_fetch k1 k3 hko
    rw [hw] at f1; cases f1
    rw [if_neg k2] at f2
    obtain ⟨_, _, p3, _, _⟩ := finishPrep_spec f5
    exact ((k4 n' f2).symm.trans p3.symm)

/-- What the report calls a signer whose signet is stored with a name. -/
theorem signerShown_stored {w : World} {get : Bytes → Bool → Res Signet} (hw : w.store = some get) {id nm : Bytes} {n : Signet} (h : get id true = .ok n)
    (hn : n.info = some { name := nm }) : signerShown w id = nm ++ b!" (" ++ id ++ b!")" := by
  unfold signerShown
  rw [hw]
  simp only [Option.bind_some, h, Except.toOption, hn, Option.map_some, Option.getD_some]

theorem signerTexts_stored {w : World} {get : Bytes → Bool → Res Signet} (hw : w.store = some get) {id nm : Bytes} {n : Signet} (h : get id true = .ok n)
    (hn : n.info = some { name := nm }) : ∀ ids : List Bytes, (∀ i ∈ ids, i = id) → ∃ ts, signerTexts w ids = .ok ts
  | [], _ => ⟨[], rfl⟩
  | i :: ids, hi => by
    obtain ⟨ts, hts⟩ := signerTexts_stored hw h hn ids fun j hj => hi j (by simp [hj])
    rw [hi i (by simp)]
    refine ⟨(nm ++ b!" (" ++ id ++ b!")") :: ts, ?_⟩
    simp only [signerTexts, signerText, hw, h, hn, hts, ok_bind]

/-- C95. Alice has a key pair in her directory trust store (as `jess generate` leaves it, see C66) and exports it; Bob imports what she exported. Alice
signs a file with an envelope that refers to herself as sender, with one of the suites for signing; the command reports success. Bob gets the file and
the signature file: then his `jess verify` succeeds, whether he names the file or the signature file, and for any metadata he asks for that she has
signed. The report says that the verification is OK, names Alice as signer, with the name she gave her key and her ID, once for each time the envelope
refers to her, and nobody else, and lists the signed metadata. (The names and the metadata fit on a line; the other conditions are those of C42.) -/
theorem signed_file_verifies (pair : Bytes → Bytes → Bytes → Prop) (T : CmdEnv) (hP : T.E.P.Correct pair) (hC : T.E.C.Sound) (hH : T.E.H.Sized)
    -- the two trust stores: a key pair in that of Alice
    (D : Dsd) (hD : D.Sound) (hL : D.Plain) (SA SB : DirStore) (hSB : SB.storageDir ≠ []) (fsA fsB : FS) (mB : AbsStore)
    (hmB : DirRefines D SB fsB mB) (id scheme nm pub priv : Bytes) (hA : PairStored T.E.P (SA.getSignet D fsA) id scheme nm pub priv)
    (hpA : pair scheme pub priv) (htA : ∃ t, getTool scheme = some t)
    -- Bob imports what Alice exported
    (envs : Bytes → Res Envelope) (text : Bytes) (hx : cmdExport T.E.P D { getSignet := SA.getSignet D fsA, getEnvelope := envs } id = .ok text)
    (w : WriteEnd) (hw : w = .done ∨ w = .refused) (fsB' : FS) (hi : importDir T.E.P D SB fsB w text = (fsB', .ok ()))
    -- Alice signs
    (hwT : T.w.store = some (SA.getSignet D fsA)) (d d1 : Disk) (file name flag data : Bytes) (e : Envelope) (hin : Reads T d file data)
    (he : T.envelopes name = .ok e) (hsl : e.SuiteLoaded) (hev : e.version = 1) (heo : e.opening = false) (hid : e.suiteID ∈ signSuites)
    (hlev : demandedLevel T.E.cfg 0 ≤ demandedLevel T.E.cfg e.securityLevel) (hsec : e.secrets = []) (hrcpt : e.recipients = [])
    (hsend : ∀ k ∈ e.senders, k.id = id ∧ k.key = [] ∧ (k.scheme = [] ∨ k.scheme = scheme))
    (husable : ∀ target, NamedBy flag target (file ++ b!".sig") → (sigFileAt d.fs (resolve T.cwd target)).Usable)
    (h : signCommand T d [file, b!"with", name] flag = (d1, .ok ()))
    -- Bob gets the file and the signature file
    (V : VerifyEnv) (hVE : V.E = T.E) (hVw : V.w.store = some (SB.getSignet D fsB')) (hVk : V.w.KeepsScheme) (x t : Bytes) (ht : SignedTarget x t)
    (hsig : ∀ target c, NamedBy flag target (file ++ b!".sig") → d1.fs (resolve T.cwd target) = some (.file c) → V.read (t ++ b!".sig") = some c)
    (hfile : V.source t = .file data) (hglob : V.glob x = .ok [x]) (hstat : ∃ i, V.stat x = some i ∧ i.isDir = false)
    (hreq : ∀ kv ∈ V.metaFlag, T.metaFlag.lookup kv.1 = some kv.2)
    -- lines
    (hlt : 10 ∉ t) (hln : 10 ∉ nm) (hli : 10 ∉ id) (hlm : ∀ kv ∈ T.metaFlag, 10 ∉ kv.1 ∧ 10 ∉ kv.2) :
    verifyCommand V [x] = .ok () ∧ ∃ p, verifyPrints V false [] x = some p ∧ linesWith b!"Verification" p = [b!"Verification: OK"] ∧
      linesWith b!"Signed By: " p = e.senders.map (fun _ => b!"Signed By: " ++ nm ++ b!" (" ++ id ++ b!")") ∧
      (linesWith b!"    " p).Perm (T.metaFlag.map metadataLine) := by
  obtain ⟨b1, b2, _⟩ := export_import_same T.E.P D hD hL SA fsA id scheme nm pub priv hA envs text hx SB hSB fsB fsB' mB hmB w hw hi
  obtain ⟨n, o, r1, r2, r3, r4, r5, r6, r7, r8, r9, r10⟩ := hA.recipient
  obtain ⟨q, qo, q1, q2, q3, q4, q5, q6, q7, q8, q9⟩ := hA.signet
  have hbob : SB.getSignet D fsB' id true = .ok n := b2.trans r1
  obtain ⟨tl, htl⟩ := htA
  have hns := tool_not_secret htl
  -- the signature file
  obtain ⟨_, _, h3⟩ := sign_command_safe T d _ flag d1 _ h
  obtain ⟨file', name', target, content, ha, hsigned, hwr, _⟩ := h3 rfl
  cases ha
  obtain ⟨hn, ⟨e', fd, data', _, he', hrd, hsf, _, _⟩, _⟩ := hsigned
  rw [he] at he'
  cases he'
  have hdd : data' = data := by
    rcases hrd with ⟨k1, k2⟩ | ⟨k1, k2⟩ <;> rcases hin with ⟨k3, k4⟩ | ⟨k3, k4⟩
    · rw [k2] at k4; cases k4; rfl
    · exact absurd k1 k3
    · exact absurd k3 k1
    · rw [k2] at k4; cases k4; rfl
  subst hdd
  have hsenders : ∀ s, correspondence T.E.P T.E.cfg T.w suiteRegistry { e with suite := none } = .ok s →
      ∀ k ∈ s.env.senders, k.id ≠ [] ∧ ∃ pub priv, k.loadedPub = some pub ∧ k.loadedPriv = some priv ∧ pair k.scheme pub priv ∧
        PublicKeyOf T.E.P V.w k.id k.scheme pub := by
    intro s hs
    obtain ⟨⟨_, i2, _⟩, _, i3⟩ := stored_counterparts T.E.P pair T.E.cfg T.w V.w _ _ hwT hVw { e with suite := none } rfl heo hsec
      (by
        intro k hk
        obtain ⟨k1, k2, k3⟩ := hsend k hk
        rw [k1]
        exact ⟨k2, scheme, pub, priv, k3, ⟨tl, htl⟩, hpA, ⟨q, qo, q1, q2, q3, q4, q5, q7, q8, q9⟩, b1⟩)
      (by intro k hk; simp only [hrcpt] at hk; cases hk) s hs
    exact fun k hk => ⟨i2 k hk, i3.senders k hk⟩
  obtain ⟨m1, _, _, s, dd, l, c1, c2, c3, c4, c5, c6⟩ := sign_verify_letter T.E hC hH pair hP T.w V.w T.rng T.now { chunks := [data'] } _
    (husable target hn) T.metaFlag e hsl hev hid hlev hsenders content fd hsf V.metaFlag hreq (DataSource.file data') (.inl (by simp))
  have hread := hsig target content hn hwr
  -- the signers
  have hids : l.signatures.map (·.id) = e.senders.map (·.id) := by
    have hh := (closed_letter_has T.E.P T.E.cfg T.w T.rng { e with suite := none } rfl s c1 dd l c3).2.signatures
    have h1 := congrArg (List.map Prod.snd) hh
    simp only [List.map_map, Function.comp_def] at h1
    rw [h1]
    refine sender_ids (e := { e with suite := none }) rfl heo _ hwT c1 fun k hk => ?_
    obtain ⟨k1, k2, k3⟩ := hsend k hk
    refine ⟨k2, ?_, ?_, ?_⟩
    · rcases k3 with k3 | k3
      · rw [k3]; decide
      · rw [k3]; exact hns.1
    · rcases k3 with k3 | k3
      · rw [k3]; decide
      · rw [k3]; exact hns.2
    · intro n' hn'
      rw [k1] at hn' ⊢
      rw [q1] at hn'
      cases hn'
      exact q2
  have hall : ∀ sl ∈ l.signatures, sl.id = id := by
    intro sl hsl'
    have : sl.id ∈ e.senders.map (·.id) := hids ▸ List.mem_map_of_mem hsl'
    obtain ⟨k, hk, hke⟩ := List.mem_map.mp this
    rw [← hke]
    exact (hsend k hk).1
  -- verifying
  have hsx : sigExt = b!".sig" := rfl
  have hvp : (verifyPath V false [] x).1 = .ok () := by
    unfold verifyPath verifyFresh
    rw [if_neg (by simp), (kind_target ht).1]
    unfold verifySigFile
    rw [hfile, hsx, hread, hVE, c6]
    simp only [Bool.false_eq_true, if_false]
    have hts := signerTexts_stored hVw hbob r6 (l.signatures.map (·.id)) (by
      intro i hi'
      obtain ⟨sl, h1, h2⟩ := List.mem_map.mp hi'
      rw [← h2]; exact hall sl h1)
    obtain ⟨ts, hts⟩ := hts
    simp only [formatSignatures, signaturesPart, formatSignature, signerPart, hts, ok_bind]
    rfl
  refine ⟨?_, ?_⟩
  · obtain ⟨i, i1, i2⟩ := hstat
    simp only [verifyCommand, hglob, ok_bind, i1, i2, Bool.false_eq_true, if_false]
    exact hvp
  · obtain ⟨p, sigs, fds, p1, p2, _, p3, p4⟩ := report_names_signers_partial V hVk x t ht hlt hvp
    obtain ⟨c, e1, e2⟩ := p2
    rw [hread] at e1
    cases e1
    rw [hVE, c5] at e2
    cases e2
    obtain ⟨f1, f2, _, f4, _⟩ := p4 (by simp) ⟨by
      intro l' hl' sl hsl'
      rw [List.mem_singleton.mp hl'] at hsl'
      rw [hall sl hsl', signerShown_stored hVw hbob r6]
      simp only [List.mem_append, not_or]
      exact ⟨⟨⟨hln, by decide⟩, hli⟩, by decide⟩, by
      intro l' hl' f hf
      rw [List.mem_singleton.mp hl', c4, hVE, hC.file _ _ c2] at hf
      cases hf
      rw [m1]
      exact hlm⟩
    refine ⟨p, p1, f2, ?_, ?_⟩
    · rw [f1]
      simp only [List.flatMap_cons, List.flatMap_nil, List.append_nil]
      have e3 : l.signatures.map (signerLine V.w) = (l.signatures.map (·.id)).map (fun _ => b!"Signed By: " ++ nm ++ b!" (" ++ id ++ b!")") := by
        rw [List.map_map]
        refine List.map_congr_left fun sl hsl' => ?_
        show b!"Signed By: " ++ signerShown V.w sl.id = _
        rw [hall sl hsl', signerShown_stored hVw hbob r6]
        simp only [Function.comp, List.append_assoc]
      rw [e3, hids, List.map_map]
      rfl
    · have hmeta : fds.flatMap (·.signed.metaData) = T.metaFlag := by
        have hl1 := p3.1
        simp only [List.length_singleton] at hl1
        match fds, hl1 with
        | [fd'], _ =>
          have hv := p3.2 0 l fd' rfl rfl
          have h5 := hv.content
          rw [c4, hVE, hC.file _ _ c2] at h5
          simp only [List.flatMap_cons, List.flatMap_nil, List.append_nil]
          rw [← Except.ok.inj h5]
          exact m1
      rw [hmeta] at f4
      exact f4

/-! ## Example -/

/-- Keys for signatures are generated like Ed25519 keys: the private key has the seed and the public key. -/
def toySignPrims : Prims :=
  { toyCodecPrims with
    dh := fun _ _ _ => []
    genKey := fun tool seed => if tool = b!"Ed25519" ∧ seed.length = 32 then .ok (seed, seed ++ seed) else .error .unsupported
    sign := fun _ _ priv digest _ => .ok (priv.drop 32 ++ digest) }

theorem toySignGen_uses : toySignPrims.UsesCodec toyLib where
  load := fun _ _ _ => rfl
  store := fun _ _ _ => rfl

theorem toySignGen_pairs : GenPairs toySignPrims toyLib (fun pub priv => pub = priv) := by
  intro tool seed pub priv h
  simp only [toySignPrims] at h
  split at h
  · rename_i hc
    cases h
    obtain ⟨rfl, hl⟩ := hc
    have hk : keyKind b!"Ed25519" = some .ed25519 := by decide +kernel
    unfold KeyPair
    rw [hk]
    exact ⟨by rw [List.length_append, hl], by rw [← hl, List.drop_left]⟩
  · cases h

def SignPair (tool pub priv : Bytes) : Prop := tool = b!"Ed25519" ∧ pub.length = 32 ∧ priv = pub ++ pub

theorem toySignGen_correct : toySignPrims.Correct SignPair where
  gen := by
    intro tool seed pub priv h
    simp only [toySignPrims] at h
    split at h
    · rename_i hc; cases h; exact ⟨hc.1, hc.2, rfl⟩
    · cases h
  dh := fun _ _ _ _ _ _ _ => rfl
  store := by
    intro tool pub priv k h1 h2
    obtain ⟨rfl, hl, rfl⟩ := h1
    have hkp : KeyPair toyLib (fun pub priv => pub = priv) b!"Ed25519" pub (pub ++ pub) := by
      have hk : keyKind b!"Ed25519" = some .ed25519 := by decide +kernel
      unfold KeyPair
      rw [hk]
      exact ⟨by rw [List.length_append, hl], by rw [← hl, List.drop_left]⟩
    obtain ⟨_, k', e1, p, e2, _⟩ := key_round_trip toyLib (fun pub priv => pub = priv) toyLib_sound b!"Ed25519" pub (pub ++ pub) hkp
    change (toolStoreKey toyLib b!"Ed25519" pub .nil).map (·.1) = .ok k at h2
    rw [e1] at h2
    cases h2
    refine ⟨p.toOption, ?_⟩
    show (toolLoadKey toyLib b!"Ed25519" k' true).map _ = _
    rw [e2]
    rfl
  encap := by intro tool hash pub priv key seed w h1 h; cases h; rfl
  cipher := toyPrims_correct.cipher
  aead := toyPrims_correct.aead
  sign := by
    intro tool hash pub priv digest seed sig h1 h2
    obtain ⟨_, hl, rfl⟩ := h1
    cases h2
    show ((pub ++ pub).drop 32 ++ digest == pub ++ digest) = true
    rw [← hl, List.drop_left]
    simp

/-- The generator for the example: the key pair and the ID are made of the byte `x`. -/
def toySignGenEnv (x : UInt8) : GenEnv FS := { toyGenEnv x toyDone with P := toySignPrims, askScheme := .ok b!"Ed25519" }

/-- `toySignGenEnv` generates key pairs of this kind. -/
theorem toySignGen_pair (x : UInt8) (name : Bytes) (fs : FS) (s : Signet) (h0 : s.scheme = b!"Ed25519")
    (hs : newSignet (toySignGenEnv x) toyFS name [] true = (fs, .ok s)) :
    ∃ nm, flagOrAsk name (.error .missing) = .ok nm ∧
      PairStored toySignPrims (toyDirStore.getSignet toyDsd fs) s.id b!"Ed25519" nm (List.replicate 32 x) (List.replicate 32 x ++ List.replicate 32 x) := by
  obtain ⟨u, nm, pub, priv, a, b, _, _, e3, e4, _, e6⟩ := generate_stores_pair toyLib (fun pub priv => pub = priv) toyLib_sound toyDsd
    toyDsd_sound toyDirStore (by decide) (toySignGenEnv x) toyDone rfl (fun _ => .inl rfl) toySignGen_uses toySignGen_pairs toyFS fs .empty
    toyDir_empty name [] s (by rw [h0]; decide +kernel) hs
  rw [h0] at e4 e6
  have e7 : (toySignGenEnv x).P.genKey b!"Ed25519" (toySignGenEnv x).seed =
      .ok (List.replicate 32 x, List.replicate 32 x ++ List.replicate 32 x) := by
    show toySignPrims.genKey _ _ = _
    simp [toySignPrims, toySignGenEnv, toyGenEnv]
  rw [e7] at e4
  cases e4
  exact ⟨nm, e3, e6⟩

/-- The environment of the commands for Alice. -/
def signStoryCmd (fs : FS) (e : Envelope) : CmdEnv :=
  { toyCmd e .done true with E := { toySigEnv with P := toySignPrims }, w := toyGenWorld fs, rng := toyLongRng }

def byAlice (a : Signet) : Envelope := { suiteID := b!"signfile_v2", senders := [{ id := a.id, scheme := b!"Ed25519" }] }

/-- Bob, with the file and the signature file; he asks for the version. -/
def bobVerifies (fs : FS) (data sig : Bytes) : VerifyEnv :=
  { toyVerify (toyGenWorld fs) [(b!"g", data), (b!"g.sig", sig)] [] none with
    E := { toySigEnv with P := toySignPrims }, metaFlag := [(b!"version", b!"1")] }

/-- Alice generates and exports her key, Bob imports it, Alice signs a file. -/
def signStoryRun : Bool :=
  match newSignet (toySignGenEnv 7) toyFS b!"Alice" [] true with
  | (fsA, .ok a) =>
    decide (a.scheme = b!"Ed25519") && decide (10 ∉ a.id) &&
    match cmdExport toySignPrims toyDsd { getSignet := toyDirStore.getSignet toyDsd fsA, getEnvelope := noEnvelopes } a.id with
    | .ok ta =>
      match importDir toySignPrims toyDsd toyDirStore toyFS .done ta with
      | (_, .ok ()) =>
        match signCommand (signStoryCmd fsA (byAlice a)) (toyDisk [(b!"f", b!"hello")]) [b!"f", b!"with", b!"env"] [] with
        | (d1, .ok ()) => match d1.content b!"f.sig" with
          | some (.file _) => true
          | _ => false
        | _ => false
      | _ => false
    | _ => false
  | _ => false

/-- All hypotheses of `signed_file_verifies` are met: Bob verifies the file that Alice signed with the key that she generated and exported. -/
theorem signed_file_verifies_example : ∃ fsA a ta fsB' d1 sig,
    newSignet (toySignGenEnv 7) toyFS b!"Alice" [] true = (fsA, .ok a) ∧
    cmdExport toySignPrims toyDsd { getSignet := toyDirStore.getSignet toyDsd fsA, getEnvelope := noEnvelopes } a.id = .ok ta ∧
    importDir toySignPrims toyDsd toyDirStore toyFS .done ta = (fsB', .ok ()) ∧
    signCommand (signStoryCmd fsA (byAlice a)) (toyDisk [(b!"f", b!"hello")]) [b!"f", b!"with", b!"env"] [] = (d1, .ok ()) ∧
    d1.content b!"f.sig" = some (.file sig) ∧
    verifyCommand (bobVerifies fsB' b!"hello" sig) [b!"g"] = .ok () ∧
    ∃ p, verifyPrints (bobVerifies fsB' b!"hello" sig) false [] b!"g" = some p ∧ linesWith b!"Verification" p = [b!"Verification: OK"] ∧
      linesWith b!"Signed By: " p = [b!"Signed By: Alice (" ++ a.id ++ b!")"] ∧ (linesWith b!"    " p).Perm [b!"    version: 1"] := by
  have h : signStoryRun = true := by decide +kernel
  unfold signStoryRun at h
  split at h
  · rename_i fsA a hgA
    simp only [Bool.and_eq_true, decide_eq_true_eq] at h
    obtain ⟨⟨sA, sL⟩, h⟩ := h
    split at h
    · rename_i ta hxA
      split at h
      · rename_i fsB' hiB
        split at h
        · rename_i d1 hd1
          split at h
          · rename_i sig hcc
            obtain ⟨nm, hnm, pA⟩ := toySignGen_pair 7 _ fsA a sA hgA
            have hnm' : nm = b!"Alice" := by
              have : flagOrAsk b!"Alice" (.error .missing) = .ok b!"Alice" := by decide +kernel
              rw [this] at hnm
              cases hnm
              rfl
            subst hnm'
            refine ⟨fsA, a, ta, fsB', d1, sig, hgA, hxA, hiB, hd1, hcc, ?_⟩
            have g := signed_file_verifies SignPair (signStoryCmd fsA (byAlice a)) toySignGen_correct toyFileCodec_sound toyHashes_sized toyDsd toyDsd_sound
              toyDsd_plain toyDirStore toyDirStore (by decide) fsA toyFS .empty toyDir_empty a.id b!"Ed25519" b!"Alice" _ _ pA ⟨rfl, rfl, rfl⟩ ⟨_, rfl⟩
              noEnvelopes ta hxA .done (.inl rfl) fsB' hiB rfl (toyDisk [(b!"f", b!"hello")]) d1 b!"f" b!"env" [] b!"hello" (byAlice a)
              (.inr ⟨by decide, by show (toyDisk [(b!"f", b!"hello")]).fs (resolve [b!"h"] b!"f") = _; decide +kernel⟩) rfl (.inl rfl) rfl rfl
              (by show b!"signfile_v2" ∈ signSuites; decide) (Int.le_refl _) rfl rfl
              (by intro k hk; rw [List.mem_singleton.mp hk]; exact ⟨rfl, rfl, Or.inr rfl⟩)
              (by
                intro target ht
                rcases ht with ⟨h1, _⟩ | ⟨_, rfl⟩
                · exact absurd rfl h1
                · have hr : sigFileAt (toyDisk [(b!"f", b!"hello")]).fs (resolve [b!"h"] (b!"f" ++ b!".sig")) = .missing := by
                    have hr2 : resolve [b!"h"] (b!"f" ++ b!".sig") = [b!"f.sig", b!"h"] := by decide +kernel
                    rw [hr2]
                    rfl
                  show (sigFileAt (toyDisk [(b!"f", b!"hello")]).fs (resolve [b!"h"] (b!"f" ++ b!".sig"))).Usable
                  rw [hr]
                  trivial) hd1
              (bobVerifies fsB' b!"hello" sig) rfl rfl ⟨(by intro cb s s' h; cases h), (by intro cb s l s' h; cases h)⟩ b!"g" b!"g"
              ⟨by unfold IsLetterPath; decide, .inr ⟨by decide, rfl⟩⟩
              (by
                intro target c ht h2
                rcases ht with ⟨h1, _⟩ | ⟨_, rfl⟩
                · exact absurd rfl h1
                · have hr : resolve (signStoryCmd fsA (byAlice a)).cwd (b!"f" ++ b!".sig") = [b!"f.sig", b!"h"] := by
                    show resolve [b!"h"] _ = _
                    decide +kernel
                  rw [hr] at h2
                  have h3 : d1.fs [b!"f.sig", b!"h"] = some (.file sig) := hcc
                  rw [h3] at h2
                  cases h2
                  rfl)
              rfl rfl ⟨_, rfl, rfl⟩ (by intro kv hk; rw [List.mem_singleton.mp hk]; rfl) (by decide) (by decide) sL
              (by intro kv hk; rw [List.mem_singleton.mp hk]; decide)
            obtain ⟨g1, p, g2, g3, g4, g5⟩ := g
            exact ⟨g1, p, g2, g3, g4, g5⟩
          · cases h
        · cases h
      · cases h
    · cases h
  · cases h

end Jess
