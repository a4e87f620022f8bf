import Verif.Props.GenerateSucceeds

/-!
# C123: signed files, from nothing
-/

namespace Jess

open Requirements

/-- C121, from the beginning. Alice has a directory and no keys. She generates a key pair and exports it under its ID, and Bob imports the text; then Alice signs files, next to
signature files which she already has or not, and Bob verifies them. None of it fails. -/
theorem signatures_from_nothing (K : KeyLib) (rsaPair : Bytes → Bytes → Prop) (hKL : K.Sound rsaPair)
    (P : Prims) (hP : P.UsesCodec K) (hG : GenPairs P K rsaPair) (W : P.Work) (pair : Bytes → Bytes → Bytes → Prop) (hC : P.Correct pair)
    (hsig : ∀ pub priv, pair b!"Ed25519" pub priv → ∀ hash digest seed, ∃ sig, P.sign b!"Ed25519" hash priv digest seed = .ok sig)
    (hK : ∀ scheme pub k, P.storeKey scheme pub none = .ok k → k ≠ []) (D : Dsd) (hD : D.Sound) (hL : D.Plain) (hW : D.Rewrites)
    (SA SB : DirStore) (hSA : SA.storageDir ≠ []) (hSB : SB.storageDir ≠ []) (fsA fsB : FS) (mA mB : AbsStore) (hmA : DirRefines D SA fsA mA)
    (hmB : DirRefines D SB fsB mB) (hinfo : ∀ id s, SB.getSignet D fsB id true = .ok s → s.info ≠ none)
    -- the one who generates
    (EA : GenEnv FS) (hEA : EA.inDir SA D (fun _ => .done)) (hPA : EA.P = P)
    (nameA nmA uA pubA privA : Bytes) (hnA : flagOrAsk nameA EA.askName = .ok nmA)
    (huA : EA.uuid = .ok uA) (hgA : P.genKey b!"Ed25519" EA.seed = .ok (pubA, privA))
    (hdA : ∀ half, half = none ∨ half = some privA → ∀ key, P.storeKey b!"Ed25519" pubA half = .ok key →
      ∃ d, D.dumpSignet { version := 1, id := uuidText (uuidMark uA), scheme := b!"Ed25519", key := key, isPublic := half.isNone, info := some { name := nmA } } = .ok d)
    (envsA : Bytes → Res Envelope) :
    ∃ fsA1 a textA fsB1, newSignet EA fsA nameA b!"Ed25519" true = (fsA1, .ok a) ∧
      cmdExport P D { getSignet := SA.getSignet D fsA1, getEnvelope := envsA } a.id = .ok textA ∧ importDir P D SB fsB .done textA = (fsB1, .ok ()) ∧
      -- Alice's surroundings
      ∀ T : CmdEnv, T.E.P = P → T.w.store = some (SA.getSignet D fsA1) → T.E.C.Sound → (∀ l, ∃ b, T.E.C.dump l = .ok b) → T.E.H.Sized → T.rng.Delivers → T.out = .done →
        (∀ hh : LabeledHash, hh.Valid →
          ∃ d, T.E.C.dumpFile { labeledHash := hh.bytes, signedAt := T.now, metaData := T.metaFlag } = .ok d ∧ d.length ≤ 2 ^ 38 - 64) →
        -- the file, and the signature file next to it
        ∀ (d : Disk) (file name data : Bytes), file ≠ b!"-" → ¬ b!".letter" <:+ file → ¬ b!".sig" <:+ file → d.fs (resolve T.cwd file) = some (.file data) →
          Writable T d (file ++ b!".sig") →
          (∀ old, d.fs (resolve T.cwd (file ++ b!".sig")) = some (.file old) → (SigFileState.content old).Usable) →
          -- an envelope with Alice as sender
          ∀ e : Envelope, T.envelopes name = .ok e → e.SuiteLoaded → e.version = 1 → e.opening = false → e.suiteID ∈ signOnlySuites → e.secrets = [] → e.recipients = [] →
            e.senders ≠ [] → (∀ k ∈ e.senders, k.id = a.id ∧ k.key = [] ∧ (k.scheme = [] ∨ k.scheme = b!"Ed25519")) →
            demandedLevel T.E.cfg e.securityLevel ≤ 128 → (0 < e.securityLevel → demandedLevel T.E.cfg e.securityLevel ≤ e.securityLevel) →
            demandedLevel T.E.cfg 0 ≤ demandedLevel T.E.cfg e.securityLevel →
            ∃ d1 c, signCommand T d [file, b!"with", name] [] = (d1, .ok ()) ∧ Outputs T d d1 (file ++ b!".sig") c ∧
              -- Bob's surroundings
              ∀ V : VerifyEnv, V.w = { store := some (SB.getSignet D fsB1) } → V.OnDisk T.cwd d1.fs → V.E = T.E → V.glob file = .ok [file] →
                (∀ kv ∈ V.metaFlag, T.metaFlag.lookup kv.1 = some kv.2) → verifyCommand V [file] = .ok () := by
  have fl : flagOrAsk b!"Ed25519" EA.askScheme = .ok b!"Ed25519" := by
    have h : trimSpace b!"Ed25519" = b!"Ed25519" := by decide +kernel
    unfold flagOrAsk; rw [h]; rfl
  have gA : ∃ t, getTool b!"Ed25519" = some t ∧ t.purpose.usesSignets = true ∧ t.needsSecurityLevel = false ∧ t.needsDefaultKeySize = false := ⟨_, rfl, rfl, rfl, rfl⟩
  obtain ⟨tA, tA1, tA2, tA3, tA4⟩ := gA
  subst hPA
  obtain ⟨fsA1, a, a1, a2, a3, a4, mA', a5⟩ := generate_succeeds K rsaPair hKL D hD SA hSA EA hEA hP hG fsA mA hmA nameA b!"Ed25519" nmA b!"Ed25519" uA pubA privA hnA
    fl huA tA tA1 tA2 (by rw [tA3]; intro h; cases h) (by rw [tA4]; intro h; cases h) hgA hdA
  have hid : a.id ≠ [] := by rw [a2]; exact (uuidText_permitted _).2
  obtain ⟨textA, c1, c2⟩ := exchange_succeeds EA.P hK D hD hL hW SA hSA fsA1 mA' a5 a.id b!"Ed25519" nmA pubA privA hid ⟨_, tA1⟩ a4 envsA
  obtain ⟨fsB1, c3⟩ := c2 SB hSB fsB mB hmB
  obtain ⟨p1, p2, _, p3⟩ := export_import_same EA.P D hD hL SA fsA1 a.id b!"Ed25519" nmA pubA privA a4 envsA textA c1 SB hSB fsB fsB1 mB hmB .done (.inl rfl) c3
  have hnamed : World.Named { store := some (SB.getSignet D fsB1) } := by
    refine ⟨_, rfl, fun id s hs => ?_⟩
    by_cases h : id = a.id
    · subst h
      rw [p2] at hs
      obtain ⟨n, _, q1, _, _, _, _, q6, _⟩ := a4.recipient
      rw [q1] at hs
      cases hs
      rw [q6]
      simp
    · exact hinfo id s ((p3 id true (by simp [h]) s).1 hs)
  refine ⟨fsA1, a, textA, fsB1, a1, c1, c3, ?_⟩
  intro T hTP hTw hTC hTd hTH hTr hTo hTf d file name data h1 h2 h3 h4 h5 h6 e e1 e2 e3 e4 e5 e6 e7 e8 e9 e10 e11 e12
  obtain ⟨d1, c, r1, r2, r3⟩ := signed_files_are_verified T (hTP ▸ W) pair (hTP ▸ hC) (hTP ▸ hsig) hTC hTd hTH hTr hTo hTf { store := some (SB.getSignet D fsB1) }
    (SA.getSignet D fsA1) (SB.getSignet D fsB1) hTw rfl hnamed d file name data h1 h2 h3 h4 h5 h6 e e1 e2 e3 e4 e5
    ⟨e6, by
      intro k hk
      obtain ⟨k1, k2, k3⟩ := e9 k hk
      rw [k1]
      exact ⟨hid, k2, k3, pubA, privA, hC.gen _ _ _ _ hgA, hTP ▸ a4.priv, hTP ▸ p1⟩, by rw [e7]; intro k hk; cases hk⟩ e8 e7 e10 e11 e12
  exact ⟨d1, c, r1, r2, r3⟩

/-! ## The hypotheses are met -/

theorem toyDsd_named {b : Bytes} {s : Signet} (h : toyDsd.loadSignet b = .ok s) : s.info ≠ none := by
  unfold toyDsd at h
  simp only [bind_ok_iff] at h
  obtain ⟨_, _, _, _, _, _, _, _, _, _, h⟩ := h
  cases h
  simp

/-- The surroundings of Alice in the example. -/
def scratchCmd (C : FileCodec) (fs : FS) (id : Bytes) : CmdEnv :=
  { toyCmd { suiteID := b!"sign_v2", senders := [{ id := id }] } .done true with
    E := { toySigEnv with P := storyPrims, C := C }, w := { store := some (toyDirStore.getSignet toyDsd fs) } }

/-- Alice starts with an empty directory. She generates a key pair and exports it, Bob imports it, Alice signs a file, Bob verifies it. -/
theorem signatures_from_nothing_example : ∃ fsA1 a ta fsB1, newSignet (storyGen 7) toyFS b!"Alice" b!"Ed25519" true = (fsA1, .ok a) ∧
    cmdExport storyPrims toyDsd { getSignet := toyDirStore.getSignet toyDsd fsA1, getEnvelope := noEnvelopes } a.id = .ok ta ∧
    importDir storyPrims toyDsd toyDirStore toyFS .done ta = (fsB1, .ok ()) ∧ ∃ C : FileCodec, C.Sound ∧
    ∃ d1, signCommand (scratchCmd C fsA1 a.id) (toyDisk [(b!"f", b!"hello")]) [b!"f", b!"with", b!"env"] [] = (d1, .ok ()) ∧
      ∀ V : VerifyEnv, V.w = { store := some (toyDirStore.getSignet toyDsd fsB1) } → V.OnDisk [b!"h"] d1.fs → V.E = { toySigEnv with P := storyPrims, C := C } →
        V.glob b!"f" = .ok [b!"f"] → V.metaFlag = [(b!"version", b!"1")] → verifyCommand V [b!"f"] = .ok () := by
  have hdA : ∀ half, half = none ∨ half = some (padSeed (List.replicate 32 7) ++ padSeed (List.replicate 32 7)) → ∀ key,
      storyPrims.storeKey b!"Ed25519" (padSeed (List.replicate 32 7)) half = .ok key → ∃ d, toyDsd.dumpSignet { version := 1, id := uuidText (uuidMark (List.replicate 16 7)), scheme := b!"Ed25519", key := key, isPublic := half.isNone, info := some { name := b!"Alice" } } = .ok d := by
    rintro half (rfl | rfl) key h
    · have : storyPrims.storeKey b!"Ed25519" (padSeed (List.replicate 32 7)) none = .ok (1 :: List.replicate 32 7) := by decide +kernel
      rw [this] at h; cases h
      exact ok_of_isOk (by decide +kernel)
    · have : storyPrims.storeKey b!"Ed25519" (padSeed (List.replicate 32 7)) (some (padSeed (List.replicate 32 7) ++ padSeed (List.replicate 32 7))) =
          .ok (1 :: List.replicate 64 7) := by decide +kernel
      rw [this] at h; cases h
      exact ok_of_isOk (by decide +kernel)
  have hinfo : ∀ id s, toyDirStore.getSignet toyDsd toyFS id true = .ok s → s.info ≠ none := by
    intro id s h
    unfold DirStore.getSignet loadSignetFromFile at h
    (repeat' split at h) <;> first | cases h | exact toyDsd_named h
  obtain ⟨fsA1, a, ta, fsB1, h1, h2, h3, h4⟩ := signatures_from_nothing toyLib (fun pub priv => pub = priv) toyLib_sound storyPrims story_uses
    story_pairs story_work StoryPair story_correct (by intro pub priv _ hash digest seed; exact ⟨_, rfl⟩) story_key toyDsd toyDsd_sound toyDsd_plain toyDsd_rewrites.1
    toyDirStore toyDirStore (by decide) (by decide) toyFS toyFS _ _ toyDir_empty toyDir_empty hinfo (storyGen 7) rfl rfl
    b!"Alice" b!"Alice" (List.replicate 16 7) _ _ (by decide +kernel) rfl rfl hdA noEnvelopes
  obtain ⟨C, c1, c2, c3⟩ := total_codec 7 [(b!"version", b!"1")]
  refine ⟨fsA1, a, ta, fsB1, h1, h2, h3, C, c1, ?_⟩
  obtain ⟨d1, c, g1, g2, g3⟩ := h4 (scratchCmd C fsA1 a.id) rfl rfl c1 c2 toyHashes_sized toy_delivers rfl c3 (toyDisk [(b!"f", b!"hello")]) b!"f" b!"env" b!"hello" (by decide)
    (by decide) (by decide) rfl
    (.inr ⟨by show resolve [b!"h"] b!"f.sig" ≠ []; decide, by show (toyDisk [(b!"f", b!"hello")]).fs (resolve [b!"h"] b!"f.sig") ≠ some .dir; decide, rfl⟩)
    (by
      intro old h
      have hx : (toyDisk [(b!"f", b!"hello")]).fs (resolve [b!"h"] b!"f.sig") = none := rfl
      exact absurd (hx.symm.trans h) (by simp))
    { suiteID := b!"sign_v2", senders := [{ id := a.id }] } rfl (.inl rfl) rfl rfl (by show b!"sign_v2" ∈ signOnlySuites; decide) rfl rfl (by simp)
    (by intro k hk; rw [List.mem_singleton.mp hk]; exact ⟨rfl, rfl, .inl rfl⟩)
    (by show demandedLevel toyConfig 0 ≤ 128; decide) (by show (0 : Int) < 0 → demandedLevel toyConfig 0 ≤ 0; decide) (Int.le_refl _)
  refine ⟨d1, g1, fun V k1 k2 k3 k4 k5 => g3 V k1 k2 k3 k4 ?_⟩
  rw [k5]
  intro kv hkv
  simp only [List.mem_singleton] at hkv
  subst hkv
  rfl

end Jess
