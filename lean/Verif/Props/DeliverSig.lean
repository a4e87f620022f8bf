import Verif.Props.DeliverFiles

/-!
# C121: signing files succeeds, and so does verifying them
-/

namespace Jess

open Requirements

/-- The labeled hash of a source that can be read. -/
theorem hashSource_read {H : Hashes} (hH : H.Sized) {alg n : Nat} (hn : lhashSize alg = some n) {r : ReadAll} (hr : r.failed = false) :
    ∃ hh, hashSource H alg (some r) = .ok hh ∧ hh.Valid := by
  refine ⟨{ alg := alg, digest := H alg (r.chunks.foldl (· ++ ·) []) }, ?_, ?_⟩
  · simp [hashSource, lhashReader, hn, hr]
  · rw [valid_iff]
    simp only
    rw [hn, hH alg n hn]

/-- The signers that a session works with have their key pairs in the trust stores. -/
theorem addressed_senders (P : Prims) (pair : Bytes → Bytes → Bytes → Prop) (cfg : Config) (ws wv : World) (getC getO : Bytes → Bool → Res Signet)
    (hws : ws.store = some getC) (hwv : wv.store = some getO) (e : Envelope) (heo : e.opening = false) (hA : Addressed P pair getC getO e) :
    ∀ s, correspondence P cfg ws suiteRegistry { e with suite := none } = .ok s →
      ∀ k ∈ s.env.senders, k.id ≠ [] ∧ ∃ pub priv, k.loadedPub = some pub ∧ k.loadedPriv = some priv ∧ pair k.scheme pub priv ∧
        PublicKeyOf P wv k.id k.scheme pub := by
  intro s hs k hk
  have te : ∃ t, getTool b!"Ed25519" = some t := ⟨_, rfl⟩
  have tx : ∃ t, getTool b!"ECDH-X25519" = some t := ⟨_, rfl⟩
  obtain ⟨q1, q2, q3⟩ := stored_counterparts P pair cfg ws wv getC getO hws hwv { e with suite := none } rfl heo hA.noSecrets
    (by
      intro k hk
      obtain ⟨_, k2, k3, pub, priv, q, h⟩ := hA.senders k hk
      exact ⟨k2, _, pub, priv, k3, te, q, h⟩)
    (by
      intro k hk
      obtain ⟨_, k2, k3, pub, priv, q, h⟩ := hA.recipients k hk
      exact ⟨k2, _, pub, priv, k3, tx, q, h⟩) s hs
  exact ⟨q1.2.1 k hk, q3.senders k hk⟩

/-- C121. Whoever has the private keys of the signers can sign any file that can be read, next to a signature file that does not exist or can take signatures; and whoever
has their public keys verifies it, for the same content. Neither fails, if the algorithms, the serializers and the source of random numbers do their work. -/
theorem signatures_are_delivered (E : SigEnv) (W : E.P.Work) (pair : Bytes → Bytes → Bytes → Prop) (hP : E.P.Correct pair)
    (hsig : ∀ pub priv, pair b!"Ed25519" pub priv → ∀ hash digest seed, ∃ sig, E.P.sign b!"Ed25519" hash priv digest seed = .ok sig)
    (hC : E.C.Sound) (hdl : ∀ l, ∃ b, E.C.dump l = .ok b) (hH : E.H.Sized) (rng : Rng) (hr : rng.Delivers)
    -- the trust stores
    (ws wv : World) (getC getO : Bytes → Bool → Res Signet) (hws : ws.store = some getC) (hwv : wv.store = some getO)
    -- the file, the signature file and the metadata
    (now : Nat) (r : ReadAll) (hrd : r.failed = false) (sf : SigFileState) (hsf : sf.Usable) (metaData : List (Bytes × Bytes))
    (hdf : ∀ hh : LabeledHash, hh.Valid → ∃ d, E.C.dumpFile { labeledHash := hh.bytes, signedAt := now, metaData := metaData } = .ok d ∧ d.length ≤ 2 ^ 38 - 64)
    -- the envelope
    (e : Envelope) (hsl : e.SuiteLoaded) (hev : e.version = 1) (heo : e.opening = false) (hid : e.suiteID ∈ signOnlySuites)
    (hA : Addressed E.P pair getC getO e) (hne : e.senders ≠ []) (hnr : e.recipients = [])
    (hl1 : demandedLevel E.cfg e.securityLevel ≤ 128) (hl2 : 0 < e.securityLevel → demandedLevel E.cfg e.securityLevel ≤ e.securityLevel)
    (hl3 : demandedLevel E.cfg 0 ≤ demandedLevel E.cfg e.securityLevel)
    -- the verifier
    (required : List (Bytes × Bytes)) (hreq : ∀ kv ∈ required, metaData.lookup kv.1 = some kv.2)
    (src : DataSource) (hsrc : src = DataSource.file r.chunks.flatten ∨ src = DataSource.stdin r.chunks.flatten) :
    ∃ out fd, signFile E ws rng now (some r) sf metaData e = .ok (out, fd) ∧ fd.signed.metaData = metaData ∧ fd.signed.signedAt = now ∧
      (SigFileState.content out).Usable ∧ ∃ l, verifyFile E wv src (some out) required = ([{ fd with signature := some l }], none) := by
  have hids : ∀ id ∈ signOnlySuites, id ∈ signSuites ∧ id ∈ signingSuites ∧ id ∉ recipientSuites := by decide
  obtain ⟨i1, i2, i3⟩ := hids _ hid
  obtain ⟨su, g1, g2, g3⟩ := signSuite_tools _ i1
  have hmem : su ∈ suiteRegistry := List.mem_of_find?_eq_some g1
  have hsuid : su.id = e.suiteID := by simpa using List.find?_some g1
  -- the hash
  obtain ⟨alg, halg⟩ : ∃ alg, suiteHash su = some alg := by
    have hall : ∀ su ∈ suiteRegistry, su.id ∈ signOnlySuites → (suiteHash su).isSome = true := by decide +kernel
    exact Option.isSome_iff_exists.mp (hall su hmem (by rw [hsuid]; exact hid))
  obtain ⟨_, _, hh0, _, _, hsize⟩ := suite_hash_label.1 su alg halg
  obtain ⟨hh, k1, k2⟩ := hashSource_read hH hsize hrd
  obtain ⟨d, d1, d2⟩ := hdf hh k2
  -- the letter
  obtain ⟨s, l, c1, c2, _⟩ := letters_are_delivered E.P W pair hP hsig E.cfg ws wv getC getO hws hwv rng hr { e with suite := none } rfl hev heo
    ⟨hA.1, hA.2, hA.3⟩ ⟨⟨fun _ => hne, fun _ => i2⟩, ⟨fun h => absurd h i3, fun h => absurd hnr h⟩, .inl i2⟩ hl1 hl2 hl3 (some [])
    (by intro _ _ _ a ha; cases ha) d d2
  obtain ⟨sk1, sk2, sk3, sk4⟩ := sign_session i1 c1
  -- it is signed
  have hl : ∃ e', loadSuite suiteRegistry e = .ok (e', su) := by
    unfold loadSuite
    rcases hsl with h | h
    · rw [h]; simp only [g1]; exact ⟨_, rfl⟩
    · rw [h, g1]; exact ⟨_, rfl⟩
  obtain ⟨e', hl⟩ := hl
  have hcor := correspondence_loaded (P := E.P) (cfg := E.cfg) (w := ws) hsl hl
  rw [c1] at hcor
  have hcompl : s.suite.provides.checkComplianceTo fileSigReqs = .ok () := (compliance_iff _ _).mpr sk4
  obtain ⟨b, hb⟩ := hdl l
  have hsign : ∃ out, signFile E ws rng now (some r) sf metaData e = .ok (out, { signed := { labeledHash := hh.bytes, signedAt := now, metaData := metaData }, fileHash := some hh }) := by
    unfold signFile signFileData
    simp only [hl, halg, k1, hcor, hcompl, d1, c2, ok_bind]
    cases sf with
    | unreadable => exact absurd hsf (by simp [SigFileState.Usable])
    | missing => simp [makeSigSection, hb, ok_bind]
    | content old => simp [addToSigFile, makeSigSection, hb, ok_bind]
  obtain ⟨out, hout⟩ := hsign
  obtain ⟨v1, v2, v3, v4⟩ := sign_verify_file_partial E hC hH pair hP ws wv rng now r sf hsf metaData e hsl hev i1 hl3
    (addressed_senders E.P pair E.cfg ws wv getC getO hws hwv e heo hA) out _ hout required hreq src hsrc
  exact ⟨out, _, hout, v1, v2, v3, v4⟩

/-- C121, for the commands. `jess sign` succeeds for every file that can be read and whose directory can be written to, and `jess verify` of the file succeeds afterwards, for any
required metadata that was signed. -/
theorem signed_files_are_verified (T : CmdEnv) (W : T.E.P.Work) (pair : Bytes → Bytes → Bytes → Prop) (hP : T.E.P.Correct pair)
    (hsig : ∀ pub priv, pair b!"Ed25519" pub priv → ∀ hash digest seed, ∃ sig, T.E.P.sign b!"Ed25519" hash priv digest seed = .ok sig)
    (hC : T.E.C.Sound) (hdl : ∀ l, ∃ b, T.E.C.dump l = .ok b) (hH : T.E.H.Sized) (hr : T.rng.Delivers) (ho : T.out = .done)
    (hdf : ∀ hh : LabeledHash, hh.Valid →
      ∃ d, T.E.C.dumpFile { labeledHash := hh.bytes, signedAt := T.now, metaData := T.metaFlag } = .ok d ∧ d.length ≤ 2 ^ 38 - 64)
    -- the trust stores
    (wv : World) (getC getO : Bytes → Bool → Res Signet) (hws : T.w.store = some getC) (hwv : wv.store = some getO) (hinfo : wv.Named)
    -- the file, and the signature file next to it
    (d : Disk) (file name data : Bytes) (hf : file ≠ b!"-") (hnl : ¬ b!".letter" <:+ file) (hns : ¬ b!".sig" <:+ file)
    (hin : d.fs (resolve T.cwd file) = some (.file data)) (hw : Writable T d (file ++ b!".sig"))
    (husable : ∀ old, d.fs (resolve T.cwd (file ++ b!".sig")) = some (.file old) → (SigFileState.content old).Usable)
    -- the envelope
    (e : Envelope) (he : T.envelopes name = .ok e) (hsl : e.SuiteLoaded) (hev : e.version = 1) (heo : e.opening = false) (hid : e.suiteID ∈ signOnlySuites)
    (hA : Addressed T.E.P pair getC getO e) (hne : e.senders ≠ []) (hnr : e.recipients = [])
    (hl1 : demandedLevel T.E.cfg e.securityLevel ≤ 128) (hl2 : 0 < e.securityLevel → demandedLevel T.E.cfg e.securityLevel ≤ e.securityLevel)
    (hl3 : demandedLevel T.E.cfg 0 ≤ demandedLevel T.E.cfg e.securityLevel) :
    ∃ d1 c, signCommand T d [file, b!"with", name] [] = (d1, .ok ()) ∧ Outputs T d d1 (file ++ b!".sig") c ∧
      ∀ V : VerifyEnv, V.w = wv → V.OnDisk T.cwd d1.fs → V.E = T.E → V.glob file = .ok [file] →
        (∀ kv ∈ V.metaFlag, T.metaFlag.lookup kv.1 = some kv.2) → verifyCommand V [file] = .ok () := by
  have hdash : file ++ b!".sig" ≠ b!"-" := by
    intro h
    have := congrArg List.length h
    simp only [List.length_append, List.length_cons, List.length_nil] at this
    omega
  obtain ⟨w1, w2, w3⟩ := hw.resolve_left hdash
  have hst : requireTrustStore T.w = .ok () := by unfold requireTrustStore; rw [hws]
  have htgt : signTarget file [] = .ok (file ++ b!".sig") := by
    unfold signTarget hasSuffix sigExt
    rw [if_pos rfl, if_neg (fun h => hns (List.isSuffixOf_iff_suffix.1 h))]
  have hinp : hashInput T d file = some { chunks := [data] } := by
    unfold hashInput
    rw [stdInOut_eq, if_neg hf, hin]
  have husf : (sigFileAt d.fs (resolve T.cwd (file ++ b!".sig"))).Usable := by
    unfold sigFileAt
    cases hx : d.fs (resolve T.cwd (file ++ b!".sig")) with
    | none => exact True.intro
    | some n =>
      cases n with
      | file old => exact husable old hx
      | dir => exact absurd hx w2
  obtain ⟨c, fd, hsf, _⟩ := signatures_are_delivered T.E W pair hP hsig hC hdl hH T.rng hr T.w wv getC getO hws hwv T.now { chunks := [data] } rfl _ husf T.metaFlag hdf
    e hsl hev heo hid hA hne hnr hl1 hl2 hl3 [] (by intro _ h; cases h) (DataSource.file data) (.inl (by simp))
  have hplan : signPlan T d file name [] = .ok (file ++ b!".sig", c) := by
    unfold signPlan
    rw [he, ok_bind, htgt, ok_bind, hinp, hsf, ok_bind]
  have hcmd : signCommand T d [file, b!"with", name] [] = ({ d with fs := d.fs.set (resolve T.cwd (file ++ b!".sig")) (some (.file c)) }, .ok ()) := by
    simp [signCommand, hst, hplan, ok_bind, writeSigFile, FS.write, ho, w1, w2, w3]
  refine ⟨_, c, hcmd, .inr ⟨hdash, rfl, by simp [FS.set], fun k hk => by simp [FS.set, hk]⟩, ?_⟩
  intro V hV1 hV2 hV3 hV4 hV5
  have hids : ∀ id ∈ signOnlySuites, id ∈ signSuites := by decide
  subst hV1
  exact sign_verify_commands_partial T hC hH pair hP d _ file name data e hf hnl hin he hsl hev (hids _ hid) hl3 husable hcmd V hV2 hV3 hV4 hV5
    (addressed_senders T.E.P pair T.E.cfg T.w V.w getC getO hws hwv e heo hA) hinfo

/-! ## Examples -/

theorem valid_bytes_short {hh : LabeledHash} (h : hh.Valid) : hh.bytes.length ≤ 2 ^ 38 - 64 := by
  have hall : ∀ x ∈ lhashAlgs, (pack64 x.1).length ≤ 2 ∧ (pack64 x.2.2).length ≤ 2 ∧ x.2.2 ≤ 64 := by decide +kernel
  obtain ⟨x, hx, h1, h2⟩ := lhashSize_find.mp ((valid_iff hh).mp h)
  obtain ⟨g1, g2, g3⟩ := hall x hx
  rw [h1] at g1
  rw [h2] at g2 g3
  simp only [LabeledHash.bytes, block, List.length_append]
  omega

/-- There are serializers that read what they write and write every letter, and the file data of this time with these metadata. -/
theorem total_codec (now : Nat) (metaData : List (Bytes × Bytes)) : ∃ C : FileCodec, C.Sound ∧ (∀ l, ∃ b, C.dump l = .ok b) ∧
    ∀ hh : LabeledHash, hh.Valid → ∃ d, C.dumpFile { labeledHash := hh.bytes, signedAt := now, metaData := metaData } = .ok d ∧ d.length ≤ 2 ^ 38 - 64 := by
  obtain ⟨hc, h1, h2⟩ := total_header
  refine ⟨{ dump := hc.dump, load := fun b => hc.load (b ++ [10]),
            dumpFile := fun x => if x = { labeledHash := x.labeledHash, signedAt := now, metaData := metaData } then .ok x.labeledHash else .error .unsupported,
            loadFile := fun d => .ok { labeledHash := d, signedAt := now, metaData := metaData } }, ⟨fun l d h => h1 l d h, ?_⟩, h2, ?_⟩
  · intro x d h
    simp only at h
    split at h
    · rename_i hx
      cases h
      exact congrArg _ hx.symm
    · cases h
  · intro hh hv
    exact ⟨hh.bytes, by simp, valid_bytes_short hv⟩

/-- The hypotheses are met: alice signs a file, and it is verified, with the toy algorithms. -/
theorem deliver_sig_example : ∃ C : FileCodec, C.Sound ∧ ∃ d1,
    signCommand { toyCmd (toyEnvelope b!"sign_v2" [] [b!"alice"] []) .done true with E := { toySigEnv with C := C } } (toyDisk [(b!"f", b!"hello")])
      [b!"f", b!"with", b!"env"] [] = (d1, .ok ()) ∧
    ∀ V : VerifyEnv, V.w = namedWorld → V.OnDisk [b!"h"] d1.fs → V.E = { toySigEnv with C := C } → V.glob b!"f" = .ok [b!"f"] →
      V.metaFlag = [(b!"version", b!"1")] → verifyCommand V [b!"f"] = .ok () := by
  obtain ⟨C, h1, h2, h3⟩ := total_codec 7 [(b!"version", b!"1")]
  refine ⟨C, h1, ?_⟩
  let T : CmdEnv := { toyCmd (toyEnvelope b!"sign_v2" [] [b!"alice"] []) .done true with E := { toySigEnv with C := C } }
  obtain ⟨getN, hget⟩ : ∃ g, namedWorld.store = some g := ⟨_, rfl⟩
  have hnamed : namedWorld.Named := by
    refine ⟨_, rfl, fun id s h => ?_⟩
    split at h
    · cases h; simp
    · cases h
  have hA : Addressed toyPrims (fun _ pub priv => pub = priv) getN getN (toyEnvelope b!"sign_v2" [] [b!"alice"] []) := by
    cases hget
    refine ⟨rfl, ?_, by intro k hk; cases hk⟩
    intro k hk
    simp only [toyEnvelope, List.map_cons, List.map_nil, List.mem_singleton] at hk
    subst hk
    exact ⟨by decide, rfl, .inl (by decide), [42, 43], [42, 43], rfl, ⟨_, _, rfl, rfl, rfl, rfl, rfl, rfl, rfl, rfl⟩, ⟨_, _, rfl, rfl, rfl, rfl, rfl, rfl, rfl⟩⟩
  obtain ⟨d1, c, g1, g2, g3⟩ := signed_files_are_verified T toy_work (fun _ pub priv => pub = priv) toyPrims_correct (by intro _ _ _ _ _ _; exact ⟨_, rfl⟩) h1 h2
    toyHashes_sized toy_delivers rfl h3 namedWorld getN getN hget hget hnamed (toyDisk [(b!"f", b!"hello")]) b!"f" b!"env" b!"hello" (by decide) (by decide) (by decide) rfl
    (.inr ⟨by show resolve [b!"h"] b!"f.sig" ≠ []; decide, by show (toyDisk [(b!"f", b!"hello")]).fs (resolve [b!"h"] b!"f.sig") ≠ some .dir; decide, rfl⟩)
    (by
      intro old h
      have hx : (toyDisk [(b!"f", b!"hello")]).fs (resolve [b!"h"] b!"f.sig") = none := rfl
      exact absurd (hx.symm.trans h) (by simp))
    (toyEnvelope b!"sign_v2" [] [b!"alice"] []) rfl (.inl rfl) rfl rfl (by decide) hA (by decide) rfl
    (by show demandedLevel toyConfig 0 ≤ 128; decide) (by show (0 : Int) < 0 → demandedLevel toyConfig 0 ≤ 0; decide) (Int.le_refl _)
  refine ⟨d1, g1, fun V k1 k2 k3 k4 k5 => g3 V k1 k2 k3 k4 ?_⟩
  rw [k5]
  intro kv hkv
  simp only [List.mem_singleton] at hkv
  subst hkv
  rfl

end Jess
