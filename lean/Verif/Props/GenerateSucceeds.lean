import Verif.Props.DeliverExchange

/-!
# C66: generating a key pair succeeds
-/

namespace Jess

theorem ok_of_isOk {α : Type} {r : Res α} (h : r.isOk = true) : ∃ x, r = .ok x := by
  cases r with
  | ok x => exact ⟨x, rfl⟩
  | error e => cases h

theorem uuidText_permitted (u : Bytes) : PermittedName (uuidText u) ∧ uuidText u ≠ [] := by
  constructor
  · intro c hc
    unfold uuidText at hc
    simp only [List.mem_append, List.mem_singleton] at hc
    have hx : ∀ d : Bytes, c ∈ hexEncode d → (97 ≤ c.toNat ∧ c.toNat ≤ 122) ∨ (65 ≤ c.toNat ∧ c.toNat ≤ 90) ∨ (48 ≤ c.toNat ∧ c.toNat ≤ 57) ∨
        c ∈ ([45, 32, 46, 95, 43, 64] : Bytes) := by
      intro d h
      have := hexEncode_chars d c h
      omega
    have hd : c = 45 → (97 ≤ c.toNat ∧ c.toNat ≤ 122) ∨ (65 ≤ c.toNat ∧ c.toNat ≤ 90) ∨ (48 ≤ c.toNat ∧ c.toNat ≤ 57) ∨
        c ∈ ([45, 32, 46, 95, 43, 64] : Bytes) := by rintro rfl; decide
    rcases hc with (((((((h | h) | h) | h) | h) | h) | h) | h) | h
    all_goals first
      | exact hx _ h
      | exact hd h
  · unfold uuidText; simp

/-- C66. `jess generate` succeeds for every tool with keys, given a name, the flags that the tool demands, randomness, and a directory trust store in which files can be
written: then the store holds the new key pair under the new ID. -/
theorem generate_succeeds (K : KeyLib) (rsaPair : Bytes → Bytes → Prop) (hK : K.Sound rsaPair) (D : Dsd) (hD : D.Sound) (S : DirStore)
    (hS : S.storageDir ≠ []) (E : GenEnv FS) (hE : E.inDir S D (fun _ => .done)) (hP : E.P.UsesCodec K) (hG : GenPairs E.P K rsaPair)
    (fs : FS) (m : AbsStore) (hm : DirRefines D S fs m) (name scheme nm tool u pub priv : Bytes)
    (hn : flagOrAsk name E.askName = .ok nm) (hs : flagOrAsk scheme E.askScheme = .ok tool) (hu : E.uuid = .ok u)
    -- the tool
    (t : ToolInfo) (ht : getTool tool = some t) (hts : t.purpose.usesSignets = true) (hl : t.needsSecurityLevel = true → 0 < E.minLevel)
    (hk : t.needsDefaultKeySize = true → 0 < E.symKeySize) (hgen : E.P.genKey tool E.seed = .ok (pub, priv))
    -- the serializer takes the two signets
    (hd : ∀ half, half = none ∨ half = some priv → ∀ key, E.P.storeKey tool pub half = .ok key →
      ∃ d, D.dumpSignet { version := 1, id := uuidText (uuidMark u), scheme := tool, key := key, isPublic := half.isNone, info := some { name := nm } } = .ok d) :
    ∃ fs' s, newSignet E fs name scheme true = (fs', .ok s) ∧ s.id = uuidText (uuidMark u) ∧ s.scheme = tool ∧
      PairStored E.P (S.getSignet D fs') s.id tool nm pub priv ∧ ∃ m', DirRefines D S fs' m' := by
  have htn : t.name = tool := getTool_named ht
  have hns := tool_not_secret ht
  have hpair := hG _ _ _ _ hgen
  obtain ⟨s', a1, a2, a3, a4, a5⟩ := signet_key_round_trip E.P K rsaPair hP hK { version := 1, scheme := tool, loadedPub := some pub, loadedPriv := some priv } pub priv
    rfl rfl rfl (.inl rfl) hpair ⟨t, ht, htn, hts⟩
  obtain ⟨k, hkey, rfl⟩ : ∃ k, E.P.storeKey tool pub (some priv) = .ok k ∧
      s' = { version := 1, scheme := tool, key := k, loadedPub := some pub, loadedPriv := some priv } := by
    unfold Signet.store at a1
    simp only [List.length_nil, ne_eq, not_true, if_false, ht, hts, if_true, htn] at a1
    split at a1
    · cases a1
    · rename_i k hk
      cases a1
      exact ⟨k, hk, rfl⟩
  have htool : genToolKey E tool = .ok { version := 1, scheme := tool, key := k, loadedPub := some pub, loadedPriv := some priv } := by
    unfold genToolKey
    simp only [ht]
    rw [if_neg (by intro h; have := hl h.1; omega), if_neg (by intro h; have := hk h.1; omega)]
    simp only [Signet.generateKey, htn, ht, hts, hgen]
    exact a1
  have hg : genSignet E name scheme = .ok ({ version := 1, id := uuidText (uuidMark u), scheme := tool, key := k, info := some { name := nm }, loadedPub := some pub, loadedPriv := some priv }, tool) := by
    unfold genSignet
    rw [hn, ok_bind, hs, ok_bind]
    unfold genKey
    rw [if_neg hns.2, if_neg hns.1, htool, ok_bind, hu, ok_bind]
  obtain ⟨_, nm', u', pub', priv', g1, _, g3, g4⟩ := genSignet_tool hg hns.2 hns.1
  obtain ⟨l1, l2, k2, l3, l4⟩ := generated_loads hP hK hG g4
  have hk2 : E.P.storeKey tool pub none = .ok k2 := by
    unfold Signet.store at l3
    simp only [Signet.publicHalf, List.length_nil, ne_eq, not_true, if_false, ht, hts, if_true, htn] at l3
    split at l3
    · cases l3
    · rename_i k' hk'
      simp only [Except.ok.injEq, Signet.mk.injEq] at l3
      rw [hk', l3.2.2.2.1]
  obtain ⟨d1, hd1⟩ := hd (some priv) (.inr rfl) k hkey
  obtain ⟨d2, hd2⟩ := hd none (.inl rfl) k2 hk2
  obtain ⟨fs1, hp1⟩ := dir_store_succeeds hD hS hm (s := { version := 1, id := uuidText (uuidMark u), scheme := tool, key := k, info := some { name := nm }, loadedPub := some pub, loadedPriv := some priv }) (uuidText_permitted _).2 (uuidText_permitted _).1 hd1
  obtain ⟨hm1, _⟩ := (dir_put hD hS hm (.inl rfl) hp1).1 () rfl
  obtain ⟨fs2, hp2⟩ := dir_store_succeeds hD hS hm1 (s := { version := 1, id := uuidText (uuidMark u), scheme := tool, key := k2, isPublic := true, info := some { name := nm }, loadedPub := some pub }) (uuidText_permitted _).2 (uuidText_permitted _).1 hd2
  have hnew : newSignet E fs name scheme true = (fs2, .ok { version := 1, id := uuidText (uuidMark u), scheme := tool, key := k, info := some { name := nm }, loadedPub := some pub, loadedPriv := some priv }) := by
    unfold newSignet
    rw [hg]
    simp only [if_true]
    unfold saveSignet
    rw [hE]
    simp only [hp1]
    rw [if_neg (by simp [hns])]
    unfold saveRecipient
    rw [l2]
    simp only [l3]
    rw [hE]
    simp only [Signet.publicHalf, hp2]
  obtain ⟨u2, nm2, pub2, priv2, a, b, e1, e2, e3, e4, e5, e6⟩ := generate_stores_pair K rsaPair hK D hD S hS E (fun _ => .done) hE (fun _ => .inl rfl) hP hG fs fs2 m hm
    name scheme _ hns hnew
  rw [hn] at e3
  cases e3
  rw [hgen] at e4
  cases e4
  exact ⟨fs2, _, hnew, rfl, rfl, e6, _, e5⟩

open Requirements in
/-- C120, from the beginning. Alice and Bob have a directory each and no keys. Each generates a key pair, exports it under its ID, and imports the text of the other; then
Alice writes letters to Bob, signed or not, and Bob reads them. None of it fails. -/
theorem letters_from_nothing (K : KeyLib) (rsaPair : Bytes → Bytes → Prop) (hKL : K.Sound rsaPair)
    (P : Prims) (hP : P.UsesCodec K) (hG : GenPairs P K rsaPair) (W : P.Work) (pair : Bytes → Bytes → Bytes → Prop) (hC : P.Correct pair)
    (hsig : ∀ pub priv, pair b!"Ed25519" pub priv → ∀ hash digest seed, ∃ sig, P.sign b!"Ed25519" hash priv digest seed = .ok sig)
    (hK : ∀ scheme pub k, P.storeKey scheme pub none = .ok k → k ≠ []) (D : Dsd) (hD : D.Sound) (hL : D.Plain) (hW : D.Rewrites) (cfg : Config)
    (SA SB : DirStore) (hSA : SA.storageDir ≠ []) (hSB : SB.storageDir ≠ []) (fsA fsB : FS) (mA mB : AbsStore) (hmA : DirRefines D SA fsA mA)
    (hmB : DirRefines D SB fsB mB)
    -- the two who generate
    (EA EB : GenEnv FS) (hEA : EA.inDir SA D (fun _ => .done)) (hEB : EB.inDir SB D (fun _ => .done)) (hPA : EA.P = P) (hPB : EB.P = P)
    (nameA nmA uA pubA privA nameB nmB uB pubB privB : Bytes) (hnA : flagOrAsk nameA EA.askName = .ok nmA) (hnB : flagOrAsk nameB EB.askName = .ok nmB)
    (huA : EA.uuid = .ok uA) (huB : EB.uuid = .ok uB) (hgA : P.genKey b!"Ed25519" EA.seed = .ok (pubA, privA)) (hgB : P.genKey b!"ECDH-X25519" EB.seed = .ok (pubB, privB))
    (hdA : ∀ half, half = none ∨ half = some privA → ∀ key, P.storeKey b!"Ed25519" pubA half = .ok key →
      ∃ d, D.dumpSignet { version := 1, id := uuidText (uuidMark uA), scheme := b!"Ed25519", key := key, isPublic := half.isNone, info := some { name := nmA } } = .ok d)
    (hdB : ∀ half, half = none ∨ half = some privB → ∀ key, P.storeKey b!"ECDH-X25519" pubB half = .ok key →
      ∃ d, D.dumpSignet { version := 1, id := uuidText (uuidMark uB), scheme := b!"ECDH-X25519", key := key, isPublic := half.isNone, info := some { name := nmB } } = .ok d)
    (envsA envsB : Bytes → Res Envelope) :
    ∃ fsA1 fsB1 a b textA textB fsA2 fsB2, newSignet EA fsA nameA b!"Ed25519" true = (fsA1, .ok a) ∧ newSignet EB fsB nameB b!"ECDH-X25519" true = (fsB1, .ok b) ∧
      cmdExport P D { getSignet := SA.getSignet D fsA1, getEnvelope := envsA } a.id = .ok textA ∧
      cmdExport P D { getSignet := SB.getSignet D fsB1, getEnvelope := envsB } b.id = .ok textB ∧
      importDir P D SA fsA1 .done textB = (fsA2, .ok ()) ∧ importDir P D SB fsB1 .done textA = (fsB2, .ok ()) ∧
      ∀ (rng : Rng), rng.Delivers →
        -- an envelope from Alice (or nobody) to Bob
        ∀ (e : Envelope), e.suite = none → e.version = 1 → e.opening = false → e.secrets = [] →
          (∀ k ∈ e.senders, k.id = a.id ∧ k.key = [] ∧ (k.scheme = [] ∨ k.scheme = b!"Ed25519")) →
          (∀ k ∈ e.recipients, k.id = b.id ∧ k.key = [] ∧ (k.scheme = [] ∨ k.scheme = b!"ECDH-X25519")) → SuiteFor e →
          demandedLevel cfg e.securityLevel ≤ 128 → (0 < e.securityLevel → demandedLevel cfg e.securityLevel ≤ e.securityLevel) →
          demandedLevel cfg 0 ≤ demandedLevel cfg e.securityLevel →
          ∀ (reqs : Option Requirements), (∀ su ∈ suiteRegistry, su.id = e.suiteID → ∀ x ∈ reqs.getD full, x ∈ su.provides) →
            ∀ data : Bytes, data.length ≤ 2 ^ 38 - 64 → ∃ s l, correspondence P cfg { store := some (SA.getSignet D fsA2) } suiteRegistry e = .ok s ∧
              (s.close P cfg rng s.initState data).2 = .ok l ∧ l.open P cfg { store := some (SB.getSignet D fsB2) } suiteRegistry reqs = .ok data := by
  have fl : ∀ (tool : Bytes) (x : Res Bytes), (tool = b!"Ed25519" ∨ tool = b!"ECDH-X25519") → flagOrAsk tool x = .ok tool := by
    rintro tool x (rfl | rfl)
    · have h : trimSpace b!"Ed25519" = b!"Ed25519" := by decide +kernel
      unfold flagOrAsk; rw [h]; rfl
    · have h : trimSpace b!"ECDH-X25519" = b!"ECDH-X25519" := by decide +kernel
      unfold flagOrAsk; rw [h]; rfl
  have gA : ∃ t, getTool b!"Ed25519" = some t ∧ t.purpose.usesSignets = true ∧ t.needsSecurityLevel = false ∧ t.needsDefaultKeySize = false := ⟨_, rfl, rfl, rfl, rfl⟩
  have gB : ∃ t, getTool b!"ECDH-X25519" = some t ∧ t.purpose.usesSignets = true ∧ t.needsSecurityLevel = false ∧ t.needsDefaultKeySize = false := ⟨_, rfl, rfl, rfl, rfl⟩
  obtain ⟨tA, tA1, tA2, tA3, tA4⟩ := gA
  obtain ⟨tB, tB1, tB2, tB3, tB4⟩ := gB
  subst hPA
  obtain ⟨fsA1, a, a1, a2, a3, a4, mA', a5⟩ := generate_succeeds K rsaPair hKL D hD SA hSA EA hEA hP hG fsA mA hmA nameA b!"Ed25519" nmA b!"Ed25519" uA pubA privA hnA
    (fl _ _ (.inl rfl)) huA tA tA1 tA2 (by rw [tA3]; intro h; cases h) (by rw [tA4]; intro h; cases h) hgA hdA
  obtain ⟨fsB1, b, b1, b2, b3, b4, mB', b5⟩ := generate_succeeds K rsaPair hKL D hD SB hSB EB hEB (hPB ▸ hP) (hPB ▸ hG) fsB mB hmB nameB b!"ECDH-X25519" nmB
    b!"ECDH-X25519" uB pubB privB hnB (fl _ _ (.inr rfl)) huB tB tB1 tB2 (by rw [tB3]; intro h; cases h) (by rw [tB4]; intro h; cases h) (hPB ▸ hgB) (hPB ▸ hdB)
  rw [hPB] at b4
  obtain ⟨textA, textB, fsA2, fsB2, c1, c2, c3, c4, c5⟩ := strangers_can_write EA.P W pair hC hsig hK D hD hL hW cfg SA SB hSA hSB fsA1 fsB1 mA' mB' a5 b5 a.id nmA pubA
    privA b.id nmB pubB privB (by rw [a2]; exact (uuidText_permitted _).2) (by rw [b2]; exact (uuidText_permitted _).2) a4 b4 (hC.gen _ _ _ _ hgA) (hC.gen _ _ _ _ hgB)
    envsA envsB
  exact ⟨fsA1, fsB1, a, b, textA, textB, fsA2, fsB2, a1, b1, c1, c2, c3, c4, c5 _ _ rfl rfl⟩

/-! ## The hypotheses are met -/

/-- The public key that a seed gives. -/
def padSeed (seed : Bytes) : Bytes := (seed ++ List.replicate 32 0).take 32

/-- Key pairs of all kinds that the example needs, with the key serialization of the code. -/
def storyPrims : Prims :=
  { toyCodecPrims with
    genKey := fun tool seed =>
      if tool = b!"ECDH-X25519" then .ok (padSeed seed, padSeed seed)
      else if tool = b!"Ed25519" then .ok (padSeed seed, padSeed seed ++ padSeed seed)
      else if keyKind tool = some .nist then .ok (point 1000 1001, point 1000 1001)
      else .error .unsupported
    sign := fun tool _ priv digest _ => if tool = b!"Ed25519" then .ok (priv.drop 32 ++ digest) else .error .unsupported }

/-- The key pairs of the example. -/
def StoryPair (tool pub priv : Bytes) : Prop :=
  (tool = b!"ECDH-X25519" ∧ pub.length = 32 ∧ priv = pub) ∨ (tool = b!"Ed25519" ∧ pub.length = 32 ∧ priv = pub ++ pub) ∨
    (keyKind tool = some .nist ∧ pub = point 1000 1001 ∧ priv = pub)

theorem padSeed_length (seed : Bytes) : (padSeed seed).length = 32 := by simp [padSeed]

theorem storyPair_gen {tool seed pub priv : Bytes} (h : storyPrims.genKey tool seed = .ok (pub, priv)) : StoryPair tool pub priv := by
  simp only [storyPrims] at h
  split at h
  · rename_i hc; cases h; exact .inl ⟨hc, padSeed_length _, rfl⟩
  · split at h
    · rename_i hc; cases h; exact .inr (.inl ⟨hc, padSeed_length _, rfl⟩)
    · split at h
      · rename_i hc; cases h; exact .inr (.inr ⟨hc, rfl, rfl⟩)
      · cases h

theorem storyPair_keyPair {tool pub priv : Bytes} (h : StoryPair tool pub priv) : KeyPair toyLib (fun pub priv => pub = priv) tool pub priv := by
  rcases h with ⟨rfl, hl, rfl⟩ | ⟨rfl, hl, rfl⟩ | ⟨hk, rfl, rfl⟩
  · have hk : keyKind b!"ECDH-X25519" = some .x25519 := by decide +kernel
    unfold KeyPair
    rw [hk]
    exact ⟨hl, hl, rfl⟩
  · have hk : keyKind b!"Ed25519" = some .ed25519 := by decide +kernel
    unfold KeyPair
    rw [hk]
    exact ⟨by rw [List.length_append, hl], by rw [← hl, List.drop_left]⟩
  · unfold KeyPair
    rw [hk]
    exact ⟨1000, 1001, rfl, rfl, by decide +kernel, by decide +kernel⟩

theorem story_uses : storyPrims.UsesCodec toyLib where
  load := fun _ _ _ => rfl
  store := fun _ _ _ => rfl

theorem story_pairs : GenPairs storyPrims toyLib (fun pub priv => pub = priv) := fun _ _ _ _ h => storyPair_keyPair (storyPair_gen h)

theorem story_correct : storyPrims.Correct StoryPair where
  gen := fun _ _ _ _ h => storyPair_gen h
  dh := by
    intro tool a x b y h1 h2
    rcases h1 with ⟨rfl, _, rfl⟩ | ⟨rfl, hl', rfl⟩ | ⟨hk, rfl, rfl⟩
    · rcases h2 with ⟨_, _, rfl⟩ | ⟨h, _⟩ | ⟨h, _⟩
      · exact toyPrims_correct.dh b!"ECDH-X25519" _ _ _ _ rfl rfl
      · exact absurd h (by decide)
      · exact absurd h (by decide +kernel)
    · rcases h2 with ⟨h, _⟩ | ⟨_, hl, rfl⟩ | ⟨h, _⟩
      · exact absurd h (by decide)
      · show toyMix (a ++ a) b = toyMix (b ++ b) a
        unfold toyMix
        congr 1
        apply List.ext_getElem
        · simp [hl, hl']
        · intro i h1 h2
          simp only [List.length_zipWith, List.length_append] at h1 h2
          simp only [List.getElem_zipWith]
          rw [List.getElem_append_left (by omega), List.getElem_append_left (by omega), UInt8.add_comm]
      · exact absurd h (by decide +kernel)
    · rcases h2 with ⟨rfl, _⟩ | ⟨rfl, _⟩ | ⟨_, rfl, rfl⟩
      · exact absurd hk (by decide +kernel)
      · exact absurd hk (by decide +kernel)
      · rfl
  store := by
    intro tool pub priv k h1 h2
    obtain ⟨_, k', e1, p, e2, _⟩ := key_round_trip toyLib (fun pub priv => pub = priv) toyLib_sound tool pub priv (storyPair_keyPair h1)
    change (toolStoreKey toyLib tool pub .nil).map (·.1) = .ok k at h2
    rw [e1] at h2
    cases h2
    refine ⟨p.toOption, ?_⟩
    show (toolLoadKey toyLib tool k' true).map _ = _
    rw [e2]
    rfl
  encap := by intro tool hash pub priv key seed w _ h; cases h; rfl
  cipher := toyPrims_correct.cipher
  aead := toyPrims_correct.aead
  sign := by
    intro tool hash pub priv digest seed sig h1 h2
    simp only [storyPrims] at h2
    split at h2
    · rename_i hc
      subst hc
      cases h2
      rcases h1 with ⟨h, _⟩ | ⟨_, hl, rfl⟩ | ⟨h, _⟩
      · exact absurd h (by decide)
      · show ((pub ++ pub).drop 32 ++ digest == pub ++ digest) = true
        rw [← hl, List.drop_left]
        simp
      · exact absurd h (by decide +kernel)
    · cases h2

theorem story_key : ∀ scheme pub k, storyPrims.storeKey scheme pub none = .ok k → k ≠ [] := by
  intro scheme pub k h
  change (toolStoreKey toyLib scheme pub .nil).map (·.1) = .ok k at h
  have h1 : pack64 1 = [1] := by decide +kernel
  unfold toolStoreKey storeBoth storeEither at h
  (repeat' split at h) <;> simp only [Except.map, h1] at h <;> cases h <;> simp

theorem story_work : storyPrims.Work := by
  refine ⟨toy_work.kdf, toy_work.kdfSize, toy_work.pass, ?_, toy_work.dh, toy_work.aead⟩
  intro t ht hp seed
  obtain ⟨pub, priv, hg⟩ : ∃ pub priv, storyPrims.genKey t.name seed = .ok (pub, priv) := by
    have h : t.name = b!"ECDH-X25519" ∨ keyKind t.name = some .nist := by
      have hall : ∀ t ∈ toolTable, t.purpose = .keyExchange → t.name = b!"ECDH-X25519" ∨ keyKind t.name = some .nist := by decide +kernel
      exact hall t ht hp
    simp only [storyPrims]
    rcases h with h | h
    · rw [if_pos h]; exact ⟨_, _, rfl⟩
    · rw [if_pos h]
      split
      · exact ⟨_, _, rfl⟩
      · split <;> exact ⟨_, _, rfl⟩
  obtain ⟨_, k, e1, _⟩ := key_round_trip toyLib (fun pub priv => pub = priv) toyLib_sound _ pub priv (storyPair_keyPair (storyPair_gen hg))
  refine ⟨pub, priv, k, hg, ?_⟩
  show (toolStoreKey toyLib t.name pub .nil).map (·.1) = .ok k
  rw [e1]
  rfl

/-- Somebody who generates in the directory of the example. -/
def storyGen (x : UInt8) : GenEnv FS := { toyGenEnv x (fun _ => .done) with P := storyPrims }

/-- Alice and Bob start with an empty directory each. They generate and exchange keys; a signed letter from Alice to Bob is written and read, whatever Alice says. -/
theorem letters_from_nothing_example : ∃ fsA1 fsB1 a b ta tb fsA2 fsB2, newSignet (storyGen 7) toyFS b!"Alice" b!"Ed25519" true = (fsA1, .ok a) ∧
    newSignet (storyGen 9) toyFS b!"Bob" b!"ECDH-X25519" true = (fsB1, .ok b) ∧
    cmdExport storyPrims toyDsd { getSignet := toyDirStore.getSignet toyDsd fsA1, getEnvelope := noEnvelopes } a.id = .ok ta ∧
    cmdExport storyPrims toyDsd { getSignet := toyDirStore.getSignet toyDsd fsB1, getEnvelope := noEnvelopes } b.id = .ok tb ∧
    importDir storyPrims toyDsd toyDirStore fsA1 .done tb = (fsA2, .ok ()) ∧ importDir storyPrims toyDsd toyDirStore fsB1 .done ta = (fsB2, .ok ()) ∧
    ∀ data : Bytes, data.length ≤ 2 ^ 38 - 64 → ∃ s l,
      correspondence storyPrims toyConfig { store := some (toyDirStore.getSignet toyDsd fsA2) } suiteRegistry { suiteID := b!"v1", senders := [{ id := a.id }], recipients := [{ id := b.id }] } = .ok s ∧
      (s.close storyPrims toyConfig toyRng s.initState data).2 = .ok l ∧
      l.open storyPrims toyConfig { store := some (toyDirStore.getSignet toyDsd fsB2) } suiteRegistry none = .ok data := by
  have hdA : ∀ half, half = none ∨ half = some (padSeed (List.replicate 32 7) ++ padSeed (List.replicate 32 7)) → ∀ key,
      storyPrims.storeKey b!"Ed25519" (padSeed (List.replicate 32 7)) half = .ok key → ∃ d, toyDsd.dumpSignet { version := 1, id := uuidText (uuidMark (List.replicate 16 7)), scheme := b!"Ed25519", key := key, isPublic := half.isNone, info := some { name := b!"Alice" } } = .ok d := by
    rintro half (rfl | rfl) key h
    · have : storyPrims.storeKey b!"Ed25519" (padSeed (List.replicate 32 7)) none = .ok (1 :: List.replicate 32 7) := by decide +kernel
      rw [this] at h; cases h
      exact ok_of_isOk (by decide +kernel)
    · have : storyPrims.storeKey b!"Ed25519" (padSeed (List.replicate 32 7)) (some (padSeed (List.replicate 32 7) ++ padSeed (List.replicate 32 7))) =
          .ok (1 :: List.replicate 64 7) := by decide +kernel
      rw [this] at h; cases h
      exact ok_of_isOk (by decide +kernel)
  have hdB : ∀ half, half = none ∨ half = some (padSeed (List.replicate 32 9)) → ∀ key,
      storyPrims.storeKey b!"ECDH-X25519" (padSeed (List.replicate 32 9)) half = .ok key → ∃ d, toyDsd.dumpSignet { version := 1, id := uuidText (uuidMark (List.replicate 16 9)), scheme := b!"ECDH-X25519", key := key, isPublic := half.isNone, info := some { name := b!"Bob" } } = .ok d := by
    rintro half (rfl | rfl) key h
    · have : storyPrims.storeKey b!"ECDH-X25519" (padSeed (List.replicate 32 9)) none = .ok (1 :: List.replicate 32 9) := by decide +kernel
      rw [this] at h; cases h
      exact ok_of_isOk (by decide +kernel)
    · have : storyPrims.storeKey b!"ECDH-X25519" (padSeed (List.replicate 32 9)) (some (padSeed (List.replicate 32 9))) = .ok (1 :: List.replicate 64 9) := by
        decide +kernel
      rw [this] at h; cases h
      exact ok_of_isOk (by decide +kernel)
  obtain ⟨fsA1, fsB1, a, b, ta, tb, fsA2, fsB2, h1, h2, h3, h4, h5, h6, h7⟩ := letters_from_nothing toyLib (fun pub priv => pub = priv) toyLib_sound storyPrims story_uses
    story_pairs story_work StoryPair story_correct (by intro pub priv _ hash digest seed; exact ⟨_, rfl⟩) story_key toyDsd toyDsd_sound toyDsd_plain toyDsd_rewrites.1
    toyConfig toyDirStore toyDirStore (by decide) (by decide) toyFS toyFS _ _ toyDir_empty toyDir_empty (storyGen 7) (storyGen 9) rfl rfl rfl rfl
    b!"Alice" b!"Alice" (List.replicate 16 7) _ _ b!"Bob" b!"Bob" (List.replicate 16 9) _ _ (by decide +kernel) (by decide +kernel) rfl rfl rfl rfl hdA hdB
    noEnvelopes noEnvelopes
  refine ⟨fsA1, fsB1, a, b, ta, tb, fsA2, fsB2, h1, h2, h3, h4, h5, h6, fun data hd => ?_⟩
  exact h7 toyRng toy_delivers { suiteID := b!"v1", senders := [{ id := a.id }], recipients := [{ id := b.id }] } rfl rfl rfl rfl
    (by intro k hk; rw [List.mem_singleton.mp hk]; exact ⟨rfl, rfl, .inl rfl⟩) (by intro k hk; rw [List.mem_singleton.mp hk]; exact ⟨rfl, rfl, .inl rfl⟩)
    ⟨⟨fun _ => by simp, fun _ => by show b!"v1" ∈ signingSuites; decide⟩, ⟨fun _ => by simp, fun _ => by show b!"v1" ∈ recipientSuites; decide⟩,
      .inl (by show b!"v1" ∈ signingSuites; decide)⟩ (by show demandedLevel toyConfig 0 ≤ 128; decide)
    (by show (0 : Int) < 0 → demandedLevel toyConfig 0 ≤ 0; decide) (Int.le_refl _) none
    (by show ∀ su ∈ suiteRegistry, su.id = b!"v1" → ∀ a ∈ Requirements.full, a ∈ su.provides; decide +kernel) data hd


end Jess
