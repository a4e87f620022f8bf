import Verif.Model.TextFormat
import Verif.Props.KeyCodec

/-! C27: public exports carry no secrets. C28: text format of signets and envelopes. C56: the backup command. -/

namespace Jess

/-- The assumptions about the serialization library: what is dumped is not empty and is loaded as it was. -/
structure Dsd.Sound (D : Dsd) : Prop where
  signet : ∀ s b, D.dumpSignet s = .ok b → b ≠ [] ∧ D.loadSignet b = .ok s
  envelope : ∀ e b, D.dumpEnvelope e = .ok b → b ≠ [] ∧ D.loadEnvelope b = .ok e
  textSignet : ∀ s b, D.textSignet s = .ok b → b ≠ [] ∧ D.loadSignet b = .ok s
  textEnvelope : ∀ e b, D.textEnvelope e = .ok b → b ≠ [] ∧ D.loadEnvelope b = .ok e

/-! ## C27 -/

/-- The public part of a signet (specification): what may be seen in an export. -/
def Signet.publicPart (s : Signet) : UInt8 × Bytes × Bytes × Option SignetInfo × Option Bytes :=
  (s.version, s.id, s.scheme, s.info, s.loadedPub)

/-- C27. The recipient of a signet has no private key, stored key, protection or signature, and is marked as public. -/
theorem recipient_is_public (P : Prims) (s r : Signet) (h : s.asRecipient P = .ok r) :
    r.loadedPriv = none ∧ r.key = [] ∧ r.isPublic = true ∧ r.signature = none ∧ r.protection = false ∧
    s.scheme ≠ schemeKey ∧ s.scheme ≠ schemePassword ∧ ∃ l, s.load P = .ok l ∧ r.publicPart = l.publicPart := by
  unfold Signet.asRecipient at h
  split at h
  · cases h
  · rename_i hs
    rw [bind_ok_iff] at h
    obtain ⟨l, hl, h⟩ := h
    cases h
    exact ⟨rfl, rfl, rfl, rfl, rfl, fun h => hs (Or.inl h), fun h => hs (Or.inr h), l, hl, rfl⟩

/-- C27. The recipient is determined by the public part: private keys, stored keys and secrets of the signet have no influence. -/
theorem recipient_determined (P : Prims) (s s' l l' : Signet) (hs : s.load P = .ok l) (hs' : s'.load P = .ok l')
    (hpub : l.publicPart = l'.publicPart) : s.asRecipient P = s'.asRecipient P := by
  have hsch : ∀ (s l : Signet), s.load P = .ok l → l.scheme = s.scheme := by
    intro s l h
    unfold Signet.load at h
    split at h
    · cases h; rfl
    · split at h
      · cases h
      · split at h
        · cases h
        · split at h
          · split at h
            · cases h
            · cases h; rfl
          · cases h
  unfold Signet.publicPart at hpub
  simp only [Prod.mk.injEq] at hpub
  obtain ⟨h1, h2, h3, h4, h5⟩ := hpub
  unfold Signet.asRecipient
  rw [hs, hs', ← hsch s l hs, ← hsch s' l' hs', h3]
  split
  · rfl
  · rw [ok_bind, ok_bind, h1, h2, h3, h4, h5]

/-- C27. The exported text of a private signet is determined by its public part: two private signets that agree in version, ID,
scheme, info and public key have the same export, whatever their private keys, stored keys and protection are. -/
theorem export_no_secrets (P : Prims) (D : Dsd) (short : Bool) (s s' l l' : Signet) (hs : s.load P = .ok l) (hs' : s'.load P = .ok l')
    (hpub : l.publicPart = l'.publicPart) (hp : s.isPublic = false) (hp' : s'.isPublic = false) :
    s.export P D short = s'.export P D short := by
  unfold Signet.export
  rw [hp, hp', recipient_determined P s s' l l' hs hs' hpub]
  rfl

/-- C27. Keys and passwords can not be exported at all. -/
theorem secrets_not_exported (P : Prims) (D : Dsd) (short : Bool) (s : Signet) (h : s.scheme = schemeKey ∨ s.scheme = schemePassword) :
    ∃ e, s.export P D short = .error e := by
  have key : ∀ x : Signet, x.isPublic = true → (x.scheme = schemeKey ∨ x.scheme = schemePassword) → ∃ e, textHead x = .error e := by
    intro x hp hx
    unfold textHead
    split
    · exact ⟨_, rfl⟩
    · rename_i h1
      rcases hx with hx | hx
      · simp [hx, hp]
      · exact absurd hx h1
  unfold Signet.export
  split
  · rename_i hp
    unfold Signet.toTextFormat Signet.toBase58 Signet.toBytes
    cases hst : s.store P with
    | error e => exact ⟨e, rfl⟩
    | ok s1 =>
      have h1 : s1 = s := by
        unfold Signet.store at hst
        split at hst
        · cases hst; rfl
        · have : getTool s.scheme = none := by rcases h with h | h <;> rw [h] <;> decide +kernel
          rw [this] at hst; cases hst
      subst h1
      simp only [ok_bind]
      cases hd : D.textSignet s1.stored with
      | error e => exact ⟨e, rfl⟩
      | ok b =>
        obtain ⟨e, he⟩ := key s1 hp h
        refine ⟨e, ?_⟩
        simp only [ok_bind]
        rw [he]; rfl
  · refine ⟨.unsupported, ?_⟩
    unfold Signet.asRecipient
    rw [if_pos h]; rfl

/-- What may be seen of the signets of an envelope. -/
def Signet.reference (s : Signet) : UInt8 × Bytes × Bytes := (s.version, s.id, s.scheme)

/-- C27. The serialization and the exported text of an envelope are determined by version, name, suite ID, security level, and
version, ID and scheme of the signets: keys and passwords that are in the signets have no influence. -/
theorem envelope_no_secrets (D : Dsd) (e e' : Envelope)
    (h : e.version = e'.version ∧ e.name = e'.name ∧ e.suiteID = e'.suiteID ∧ e.securityLevel = e'.securityLevel)
    (h1 : e.secrets.map Signet.reference = e'.secrets.map Signet.reference)
    (h2 : e.senders.map Signet.reference = e'.senders.map Signet.reference)
    (h3 : e.recipients.map Signet.reference = e'.recipients.map Signet.reference) :
    (e.toBytes D).2 = (e'.toBytes D).2 ∧ ∀ short, (e.export D short).2 = (e'.export D short).2 := by
  have key : ∀ as bs : List Signet, as.map Signet.reference = bs.map Signet.reference → as.map Signet.clean = bs.map Signet.clean := by
    intro as bs h
    have : ∀ cs : List Signet, cs.map Signet.clean = (cs.map Signet.reference).map (fun (v, i, c) => ({ version := v, id := i, scheme := c } : Signet)) := by
      intro cs; rw [List.map_map]; rfl
    rw [this, this, h]
  have hst : e.clean.stored = e'.clean.stored := by
    unfold Envelope.clean Envelope.stored
    simp only [h.1, h.2.1, h.2.2.1, h.2.2.2, key _ _ h1, key _ _ h2, key _ _ h3]
  have hst2 : e.clean.clean.stored = e'.clean.clean.stored := by
    have : ∀ e : Envelope, e.clean.clean = e.clean := by
      intro e
      unfold Envelope.clean
      simp only [List.map_map]
      rfl
    rw [this, this, hst]
  refine ⟨by unfold Envelope.toBytes; rw [hst], fun short => ?_⟩
  unfold Envelope.export Envelope.toBytes
  simp only [hst2, h.2.1, h.2.2.1]

/-! ## C28 -/

theorem b58Encode_no_colon (d : Bytes) : ∀ c ∈ b58Encode d, c ≠ 58 := by
  have h58 : ∀ n < 58, b58Char n ≠ 58 := by decide
  intro c hc
  unfold b58Encode at hc
  obtain ⟨g, hg, rfl⟩ := List.mem_map.mp hc
  exact h58 g (b58Digits_lt d g hg)

theorem lastSection_append (pre data : Bytes) (h : ∀ c ∈ data, c ≠ 58) : lastSection (pre ++ [58] ++ data) = data := by
  unfold lastSection
  have : (pre ++ [58] ++ data).reverse = data.reverse ++ 58 :: pre.reverse := by simp
  rw [this]
  have tw : ∀ (a : Bytes) (b : Bytes), (∀ c ∈ a, c ≠ 58) → (a ++ 58 :: b).takeWhile (· ≠ 58) = a := by
    intro a b ha
    induction a with
    | nil => simp
    | cons x xs ih =>
      rw [List.cons_append, List.takeWhile_cons]
      have : decide (x ≠ 58) = true := by simpa using ha x (by simp)
      rw [if_pos this, ih (fun c hc => ha c (by simp [hc]))]
  rw [tw _ _ (fun c hc => h c (by simpa using hc)), List.reverse_reverse]

/-- The shape of every text that is produced: the keyword, a colon, anything, the data after the last colon. -/
theorem text_shape (P : Prims) (D : Dsd) (short : Bool) (s : Signet) (t : Bytes) (h : s.toTextFormat P D short = .ok t) :
    ∃ s1 b kind comment mid, s.store P = .ok s1 ∧ D.textSignet s1.stored = .ok b ∧ textHead s1 = .ok (kind, comment) ∧
      t = kind.keyword ++ [58] ++ mid ∧ lastSection t = b58Encode b := by
  unfold Signet.toTextFormat Signet.toBase58 Signet.toBytes at h
  simp only [bind_ok_iff] at h
  obtain ⟨⟨s2, d⟩, ⟨⟨s1, b⟩, ⟨s0, h1, b0, h2, h3⟩, h4⟩, ⟨kind, comment⟩, h5, h⟩ := h
  cases h3; cases h4
  simp only at h h5
  refine ⟨s1, b, kind, comment, ?_⟩
  split at h
  · cases h
    exact ⟨b58Encode b, h1, h2, h5, rfl, lastSection_append _ _ (b58Encode_no_colon b)⟩
  · split at h
    · cases h
    · rename_i i hi
      cases h
      refine ⟨comment ++ [58] ++ textName i.name ++ [58] ++ b58Encode b, h1, h2, h5, by simp, ?_⟩
      exact lastSection_append _ _ (b58Encode_no_colon b)

theorem hasPrefix_append (a b : Bytes) : hasPrefix (a ++ b) a = true := by
  unfold hasPrefix
  rw [List.isPrefixOf_iff_prefix]
  exact List.prefix_append a b

/-- C28. The keyword is not a prefix of the text of another kind. -/
theorem kinds_exclusive (k k' : TextKind) (rest : Bytes) (h : k ≠ k') : hasPrefix (k.keyword ++ [58] ++ rest) (k'.keyword ++ [58]) = false := by
  cases k <;> cases k' <;> first | exact absurd rfl h | rfl

theorem special_no_tool : getTool schemeKey = none ∧ getTool schemePassword = none := by decide +kernel

/-- Storing the key changes nothing else. -/
theorem store_keeps (P : Prims) (s s' : Signet) (a1 : s.store P = .ok s') :
    s'.scheme = s.scheme ∧ s'.version = s.version ∧ s'.id = s.id ∧ s'.info = s.info := by
  unfold Signet.store at a1
  split at a1
  · cases a1; exact ⟨rfl, rfl, rfl, rfl⟩
  · split at a1
    · cases a1
    · split at a1
      · split at a1
        · cases a1
        · split at a1
          · cases a1
          · cases a1; exact ⟨rfl, rfl, rfl, rfl⟩
      · cases a1

/-- C28. Parsing a text that was produced yields the signet of which the key is loaded; the parsers for other kinds reject it. -/
theorem text_parses (P : Prims) (D : Dsd) (hD : D.Sound) (short : Bool) (s : Signet) (t : Bytes) (h : s.toTextFormat P D short = .ok t) :
    ∃ s1 kind comment, s.store P = .ok s1 ∧ textHead s1 = .ok (kind, comment) ∧ signetFromText P D kind t = s1.stored.load P ∧
      ∀ kind', kind' ≠ kind → signetFromText P D kind' t = .error .malformed := by
  obtain ⟨s1, b, kind, comment, mid, h1, h2, h3, ht, h4⟩ := text_shape P D short s t h
  obtain ⟨hb, hl⟩ := hD.textSignet _ _ h2
  refine ⟨s1, kind, comment, h1, h3, ?_, fun kind' hk => ?_⟩
  · unfold signetFromText
    rw [if_pos (by rw [ht]; exact hasPrefix_append _ _), h4]
    unfold signetFromBase58 signetFromBytes
    rw [b58Decode_encode hb, ok_bind, hl, ok_bind]
  · unfold signetFromText
    rw [ht, kinds_exclusive kind kind' mid (Ne.symm hk)]
    rfl

/-- C28. The backup of a private signet with a key pair of its tool is parsed as sender and yields the same signet, whatever its name
is; for the short format, and for the long one if there is info. No other parser accepts it. -/
theorem backup_round_trip (P : Prims) (D : Dsd) (hD : D.Sound) (K : KeyLib) (rsaPair : Bytes → Bytes → Prop) (hP : P.UsesCodec K)
    (hK : K.Sound rsaPair) (short : Bool) (s : Signet) (pub priv t : Bytes) (hk : s.key = []) (hpub0 : s.isPublic = false)
    (hprot : s.protection = false) (hpub : s.loadedPub = some pub) (hpriv : s.loadedPriv = some priv)
    (hpair : KeyPair K rsaPair s.scheme pub priv)
    (htool : ∃ t, getTool s.scheme = some t ∧ t.name = s.scheme ∧ t.purpose.usesSignets = true)
    (h : s.backup P D short = .ok t) :
    ∃ s', s.store P = .ok s' ∧ signetFromText P D .sender t = .ok s' ∧
      s'.loadedPub = some pub ∧ s'.loadedPriv = some priv ∧ s'.publicPart = s.publicPart ∧
      ∀ kind, kind ≠ .sender → signetFromText P D kind t = .error .malformed := by
  unfold Signet.backup at h
  rw [hpub0] at h
  obtain ⟨s1, kind, comment, h1, h2, h3, h4⟩ := text_parses P D hD short s t h
  obtain ⟨s', a1, a2, a3, a4, a5⟩ := signet_key_round_trip P K rsaPair hP hK s pub priv hk hprot hpub (Or.inl hpriv) hpair htool
  have hss : s' = s1 := Except.ok.inj (a1.symm.trans h1)
  subst hss
  have hsch := store_keeps P s s' a1
  have hns : s'.scheme ≠ schemePassword ∧ s'.scheme ≠ schemeKey := by
    obtain ⟨t, ht, _⟩ := htool
    rw [hsch.1]
    constructor <;> (intro hx; rw [hx] at ht; first | (rw [special_no_tool.1] at ht; cases ht) | (rw [special_no_tool.2] at ht; cases ht))
  have hkind : kind = .sender := by
    unfold textHead at h2
    rw [if_neg hns.1, if_neg hns.2, a2, hpriv] at h2
    cases h2; rfl
  subst hkind
  refine ⟨s', a1, by rw [h3]; exact a5, a3.trans hpub, a4.trans hpriv, ?_, h4⟩
  unfold Signet.publicPart
  rw [hsch.1, hsch.2.1, hsch.2.2.1, hsch.2.2.2, a3]

/-- C28. The export of a signet with a key pair of its tool is parsed as recipient and yields its recipient. -/
theorem export_round_trip (P : Prims) (D : Dsd) (hD : D.Sound) (K : KeyLib) (rsaPair : Bytes → Bytes → Prop) (hP : P.UsesCodec K)
    (hK : K.Sound rsaPair) (short : Bool) (s l : Signet) (pub priv t : Bytes) (hpub0 : s.isPublic = false)
    (hl : s.load P = .ok l) (hpub : l.loadedPub = some pub)
    (hpair : KeyPair K rsaPair l.scheme pub priv)
    (htool : ∃ t, getTool l.scheme = some t ∧ t.name = l.scheme ∧ t.purpose.usesSignets = true)
    (h : s.export P D short = .ok t) :
    ∃ r, signetFromText P D .recipient t = .ok r ∧ r.isPublic = true ∧ r.loadedPriv = none ∧ r.publicPart = l.publicPart ∧
      ∀ kind, kind ≠ .recipient → signetFromText P D kind t = .error .malformed := by
  unfold Signet.export at h
  rw [hpub0] at h
  simp only [Bool.false_eq_true, if_false, bind_ok_iff] at h
  obtain ⟨r0, hr0, h⟩ := h
  obtain ⟨r1, r2, r3, r4, r5, _, _, l', hl', hpp⟩ := recipient_is_public P s r0 hr0
  rw [hl] at hl'; cases hl'
  have e := hpp
  unfold Signet.publicPart at e
  simp only [Prod.mk.injEq] at e
  obtain ⟨e1, e2, e3, e4, e5⟩ := e
  obtain ⟨s1, kind, comment, h1, h2, h3, h4⟩ := text_parses P D hD short r0 t h
  obtain ⟨s', a1, a2, a3, a4, a5⟩ := signet_key_round_trip P K rsaPair hP hK r0 pub priv r2 r5 (e5.trans hpub) (Or.inr r1)
    (by rw [e3]; exact hpair) (by rw [e3]; exact htool)
  have hss : s' = s1 := Except.ok.inj (a1.symm.trans h1)
  subst hss
  have hsch := store_keeps P r0 s' a1
  have hns : s'.scheme ≠ schemePassword ∧ s'.scheme ≠ schemeKey := by
    obtain ⟨t, ht, _⟩ := htool
    rw [hsch.1, e3]
    constructor <;> (intro hx; rw [hx] at ht; first | (rw [special_no_tool.1] at ht; cases ht) | (rw [special_no_tool.2] at ht; cases ht))
  have hpb : s'.isPublic = true := by rw [a2, r1]; rfl
  have hkind : kind = .recipient := by
    unfold textHead at h2
    rw [if_neg hns.1, if_neg hns.2, hpb] at h2
    cases h2; rfl
  subst hkind
  refine ⟨s', by rw [h3]; exact a5, hpb, a4.trans r1, ?_, h4⟩
  rw [← hpp]
  unfold Signet.publicPart
  rw [hsch.1, hsch.2.1, hsch.2.2.1, hsch.2.2.2, a3]

/-- C28 is REFUTED for keys: the backup of a key is produced, but no parser accepts it, so the key is lost. -/
theorem key_backup_lost (P : Prims) (D : Dsd) (hD : D.Sound) (short : Bool) (s : Signet) (t : Bytes) (hs : s.scheme = schemeKey)
    (hl : s.loadedPub = none) (h : s.backup P D short = .ok t) : ∀ kind, ∃ e, signetFromText P D kind t = .error e := by
  unfold Signet.backup at h
  split at h
  · cases h
  · obtain ⟨s1, kind, comment, h1, h2, h3, h4⟩ := text_parses P D hD short s t h
    intro kind'
    by_cases hk : kind' = kind
    · subst hk
      rw [h3]
      have hs1 : s1.scheme = schemeKey := by
        unfold Signet.store at h1
        split at h1
        · cases h1; exact hs
        · have : getTool s.scheme = none := by rw [hs]; decide +kernel
          rw [this] at h1; cases h1
      have ht : getTool s1.stored.scheme = none := by
        show getTool s1.scheme = none
        rw [hs1]; decide +kernel
      unfold Signet.load
      rw [ht]
      split
      · rename_i hx; cases hx
      · split <;> exact ⟨_, rfl⟩
    · exact ⟨_, h4 kind' hk⟩

/-- C28. The text of an envelope is parsed to the envelope without keys, whatever its name and suite are; other parsers reject it. -/
theorem envelope_text_round_trip (P : Prims) (D : Dsd) (hD : D.Sound) (short : Bool) (e : Envelope) (t : Bytes)
    (h : (e.export D short).2 = .ok t) :
    envelopeFromText D t = .ok e.clean.stored ∧ (e.export D short).1 = e.clean ∧
      ∀ kind, kind ≠ .envelope → signetFromText P D kind t = .error .malformed := by
  have hcc : e.clean.clean = e.clean := by
    unfold Envelope.clean
    simp only [List.map_map]
    rfl
  unfold Envelope.export Envelope.toBytes at h
  simp only [bind_ok_iff] at h
  obtain ⟨b, hb, h⟩ := h
  rw [hcc] at hb
  obtain ⟨hne, hload⟩ := hD.textEnvelope _ _ hb
  have shape : ∃ mid, t = TextKind.envelope.keyword ++ [58] ++ mid ∧ lastSection t = b58Encode b := by
    split at h
    · cases h
      exact ⟨b58Encode b, rfl, lastSection_append _ _ (b58Encode_no_colon b)⟩
    · cases h
      exact ⟨e.suiteID ++ [58] ++ e.name ++ [58] ++ b58Encode b, by simp, lastSection_append _ _ (b58Encode_no_colon b)⟩
  obtain ⟨mid, ht, hlast⟩ := shape
  refine ⟨?_, rfl, fun kind hk => ?_⟩
  · unfold envelopeFromText
    rw [if_pos (by rw [ht]; exact hasPrefix_append _ _), hlast, b58Decode_encode hne, ok_bind, hload]
  · unfold signetFromText
    rw [ht, kinds_exclusive .envelope kind mid (Ne.symm hk)]
    rfl

/-! ## C56 -/

/-- C56 is REFUTED: the backup command never prints a backup. If there is a signet it says that there is none, and if there is none it
panics. -/
theorem backup_command_broken (ts : TextStore) (id : Bytes) :
    (∀ s, ts.getSignet id false = .ok s → cmdBackup ts id = .error .notFound) ∧
    (∀ e, ts.getSignet id false = .error e → cmdBackup ts id = .error .panic) := by
  constructor
  · intro s h; unfold cmdBackup; rw [h]
  · intro e h; unfold cmdBackup; rw [h]

/-- C28. What `jess import` accepts, and as what: the text before the first colon decides which parser reads the text. -/
theorem import_dispatch (P : Prims) (D : Dsd) (rest : Bytes) :
    cmdImport P D (b!"envelope:" ++ rest) = (envelopeFromText D (b!"envelope:" ++ rest)).map .envelope ∧
    cmdImport P D (b!"sender:" ++ rest) = (signetFromText P D .sender (b!"sender:" ++ rest)).map .signet ∧
    cmdImport P D (b!"recipient:" ++ rest) = (signetFromText P D .recipient (b!"recipient:" ++ rest)).map .signet ∧
    cmdImport P D (b!"secret:" ++ rest) = (signetFromText P D .secret (b!"secret:" ++ rest)).map .signet ∧
    ∀ text, (∀ kw ∈ [b!"envelope:", b!"sender:", b!"recipient:", b!"secret:"], ¬ kw <+: text) → cmdImport P D text = .error .malformed := by
  refine ⟨rfl, rfl, rfl, rfl, ?_⟩
  intro text h
  have hn : ∀ kw ∈ [b!"envelope:", b!"sender:", b!"recipient:", b!"secret:"], hasPrefix text kw = false := by
    intro kw hkw
    cases hx : hasPrefix text kw with
    | false => rfl
    | true => exact absurd (List.isPrefixOf_iff_prefix.1 hx) (h kw hkw)
  unfold cmdImport
  rw [show hasPrefix text (TextKind.envelope.keyword ++ [58]) = false from hn _ (by decide),
    show hasPrefix text (TextKind.sender.keyword ++ [58]) = false from hn _ (by decide),
    show hasPrefix text (TextKind.recipient.keyword ++ [58]) = false from hn _ (by decide),
    show hasPrefix text (TextKind.secret.keyword ++ [58]) = false from hn _ (by decide)]
  simp

/-- C28. What any of the parsers reads is what `jess import` imports. -/
theorem import_of_parsed (P : Prims) (D : Dsd) (t : Bytes) :
    (∀ kind s, signetFromText P D kind t = .ok s → kind ≠ .envelope → cmdImport P D t = .ok (.signet s)) ∧
    (∀ e, envelopeFromText D t = .ok e → cmdImport P D t = .ok (.envelope e)) := by
  have hpre : ∀ (kind : TextKind), hasPrefix t (kind.keyword ++ [58]) = true → ∃ rest, t = kind.keyword ++ [58] ++ rest := by
    intro kind h
    obtain ⟨r, hr⟩ := List.isPrefixOf_iff_prefix.1 h
    exact ⟨r, hr.symm⟩
  refine ⟨fun kind s h hk => ?_, fun e h => ?_⟩
  · have hp : hasPrefix t (kind.keyword ++ [58]) = true := by
      cases hx : hasPrefix t (kind.keyword ++ [58]) with
      | true => rfl
      | false => unfold signetFromText at h; rw [hx] at h; cases h
    obtain ⟨rest, rfl⟩ := hpre kind hp
    obtain ⟨_, h2, h3, h4, _⟩ := import_dispatch P D rest
    cases kind with
    | envelope => exact absurd rfl hk
    | sender => rw [show TextKind.sender.keyword ++ [58] = b!"sender:" from rfl] at h ⊢; rw [h2, h]; rfl
    | recipient => rw [show TextKind.recipient.keyword ++ [58] = b!"recipient:" from rfl] at h ⊢; rw [h3, h]; rfl
    | secret => rw [show TextKind.secret.keyword ++ [58] = b!"secret:" from rfl] at h ⊢; rw [h4, h]; rfl
  · have hp : hasPrefix t (TextKind.envelope.keyword ++ [58]) = true := by
      cases hx : hasPrefix t (TextKind.envelope.keyword ++ [58]) with
      | true => rfl
      | false => unfold envelopeFromText at h; rw [hx] at h; cases h
    obtain ⟨rest, rfl⟩ := hpre _ hp
    rw [show TextKind.envelope.keyword ++ [58] = b!"envelope:" from rfl] at h ⊢
    rw [(import_dispatch P D rest).1, h]
    rfl

/-- C56, what remains true for the other commands: importing an exported recipient or signet yields the recipient. -/
theorem export_import_partial (P : Prims) (D : Dsd) (hD : D.Sound) (K : KeyLib) (rsaPair : Bytes → Bytes → Prop) (hP : P.UsesCodec K)
    (hK : K.Sound rsaPair) (ts : TextStore) (id t : Bytes) (s l : Signet) (pub priv : Bytes)
    (hnone : ∃ e, ts.getSignet id true = .error e) (hget : ts.getSignet id false = .ok s) (hpub0 : s.isPublic = false)
    (hl : s.load P = .ok l) (hpub : l.loadedPub = some pub) (hpair : KeyPair K rsaPair l.scheme pub priv)
    (htool : ∃ t, getTool l.scheme = some t ∧ t.name = l.scheme ∧ t.purpose.usesSignets = true)
    (h : cmdExport P D ts id = .ok t) :
    ∃ r, cmdImport P D t = .ok (.signet r) ∧ r.isPublic = true ∧ r.loadedPriv = none ∧ r.publicPart = l.publicPart := by
  obtain ⟨e, hnone⟩ := hnone
  unfold cmdExport at h
  rw [hnone, hget] at h
  simp only at h
  have h' : s.export P D false = .ok t := by
    unfold Signet.export
    rw [hpub0]
    simp only [Bool.false_eq_true, if_false]
    rw [bind_ok_iff] at h ⊢
    obtain ⟨r, hr, h⟩ := h
    refine ⟨r, hr, ?_⟩
    unfold Signet.export at h
    rw [(recipient_is_public P s r hr).2.2.1] at h
    exact h
  obtain ⟨r, hr, h1, h2, h3, h4⟩ := export_round_trip P D hD K rsaPair hP hK false s l pub priv t hpub0 hl hpub hpair htool h'
  refine ⟨r, ?_, h1, h2, h3⟩
  have hpre : ∀ kind, hasPrefix t (TextKind.keyword kind ++ [58]) = decide (kind = .recipient) := by
    intro kind
    have hrec : hasPrefix t (TextKind.recipient.keyword ++ [58]) = true := by
      cases hx : hasPrefix t (TextKind.recipient.keyword ++ [58])
      · unfold signetFromText at hr; rw [hx] at hr; cases hr
      · rfl
    unfold hasPrefix at hrec ⊢
    rw [List.isPrefixOf_iff_prefix] at hrec
    obtain ⟨rest, hrest⟩ := hrec
    rw [← hrest]
    by_cases hk : kind = .recipient
    · subst hk
      rw [decide_eq_true rfl, List.isPrefixOf_iff_prefix]
      exact List.prefix_append _ _
    · rw [decide_eq_false hk]
      exact kinds_exclusive .recipient kind rest (Ne.symm hk)
  unfold cmdImport
  rw [hpre, hpre, hpre]
  simp [hr, Except.map]

/-! ## Examples -/

/-- A toy serialization library: for signets with little data. -/
def toyDsd : Dsd where
  dumpSignet := fun s =>
    match s.info with
    | none => .error .malformed
    | some i =>
      if s = { version := 1, id := s.id, scheme := s.scheme, key := s.key, isPublic := s.isPublic, info := some { name := i.name } } ∧
          s.id.length < 2 ^ 64 ∧ s.scheme.length < 2 ^ 64 ∧ s.key.length < 2 ^ 64 ∧ i.name.length < 2 ^ 64 then
        .ok ((if s.isPublic then 1 else 0) :: (block s.id ++ (block s.scheme ++ (block s.key ++ (block i.name ++ [])))))
      else .error .malformed
  loadSignet := fun b => do
    let (a, b) ← (match b with | [] => .error .short | x :: b => .ok (x, b) : Res (UInt8 × Bytes))
    let (i, b) ← getBlock b
    let (c, b) ← getBlock b
    let (k, b) ← getBlock b
    let (n, _) ← getBlock b
    .ok { version := 1, id := i, scheme := c, key := k, isPublic := a == 1, info := some { name := n } }
  dumpEnvelope := fun e =>
    if e = { version := 1, name := e.name, suiteID := e.suiteID } ∧ e.name.length < 2 ^ 64 ∧ e.suiteID.length < 2 ^ 64 then
      .ok (block e.name ++ (block e.suiteID ++ []))
    else .error .malformed
  loadEnvelope := fun b => do
    let (n, b) ← getBlock b
    let (i, _) ← getBlock b
    .ok { version := 1, name := n, suiteID := i }

theorem toyDsd_signet : ∀ s b, toyDsd.dumpSignet s = .ok b → b ≠ [] ∧ toyDsd.loadSignet b = .ok s := by
  intro s b h
  unfold toyDsd at h ⊢
  simp only at h
  split at h
  · cases h
  · rename_i i hi
    split at h
    · rename_i hc
      obtain ⟨h0, h1, h2, h3, h4⟩ := hc
      cases h
      refine ⟨by simp, ?_⟩
      simp only [ok_bind, getBlock_block h1, getBlock_block h2, getBlock_block h3, getBlock_block h4]
      conv => rhs; rw [h0]
      cases s.isPublic <;> rfl
    · cases h

theorem toyDsd_envelope : ∀ e b, toyDsd.dumpEnvelope e = .ok b → b ≠ [] ∧ toyDsd.loadEnvelope b = .ok e := by
  intro e b h
  unfold toyDsd at h ⊢
  simp only at h
  split at h
  · rename_i hc
    obtain ⟨h0, h1, h2⟩ := hc
    cases h
    refine ⟨by simp [block, pack64_ne_nil], ?_⟩
    simp only [ok_bind, getBlock_block h1, getBlock_block h2]
    conv => rhs; rw [h0]
  · cases h

theorem toyDsd_sound : toyDsd.Sound := ⟨toyDsd_signet, toyDsd_envelope, toyDsd_signet, toyDsd_envelope⟩

/-- A signet with a name that contains the separator. -/
def toySigner : Signet :=
  { version := 1, id := b!"anna", scheme := b!"Ed25519", info := some { name := b!"Anna: the 1st :" },
    loadedPub := some (List.replicate 32 3), loadedPriv := some (List.replicate 64 3) }

/-- The hypotheses of the round trips are met: a backup and an export are produced, both are parsed. -/
theorem text_example :
    (match toySigner.backup toyCodecPrims toyDsd false with
      | .ok t => hasPrefix t b!"sender:private-ed25519-key:anna-the-1st:" &&
          (match signetFromText toyCodecPrims toyDsd .sender t with
            | .ok s => decide (s.loadedPriv = some (List.replicate 64 3))
            | .error _ => false)
      | .error _ => false) = true ∧
    (match toySigner.export toyCodecPrims toyDsd true with
      | .ok t => hasPrefix t b!"recipient:" &&
          (match signetFromText toyCodecPrims toyDsd .recipient t with
            | .ok s => decide (s.loadedPub = some (List.replicate 32 3) ∧ s.loadedPriv = none)
            | .error _ => false)
      | .error _ => false) = true := by
  decide +kernel

/-- C27 is REFUTED for signets that are marked as public although their stored key includes the private key: this signet can be loaded
as a public signet, and its export contains the private key. -/
theorem public_flag_leaks (priv : Bytes) (hp : priv.length = 32) :
    let s : Signet := { version := 1, id := b!"x", scheme := b!"ECDH-X25519", key := 1 :: (List.replicate 32 7 ++ priv), isPublic := true,
                        info := some { name := b!"x" } }
    (∃ l, s.load toyCodecPrims = .ok l ∧ l.loadedPriv = none) ∧
    ∀ t, s.export toyCodecPrims toyDsd false = .ok t →
      ∃ r, signetFromText toyCodecPrims toyDsd .recipient t = .ok r ∧ r.key = 1 :: (List.replicate 32 7 ++ priv) := by
  intro s
  have hload : s.stored.load toyCodecPrims = .ok { s with loadedPub := some (List.replicate 32 7), loadedPriv := none } := by
    have hx := (load_x25519_iff toyLib (1 :: (List.replicate 32 7 ++ priv)) true (List.replicate 32 7) .nil).mpr
      ⟨by simp, rfl, Or.inl ⟨rfl, rfl, priv, rfl⟩⟩
    have hk : toolLoadKey toyLib b!"ECDH-X25519" (1 :: (List.replicate 32 7 ++ priv)) true = .ok (List.replicate 32 7, .nil) := hx
    have ht : ∃ t, getTool b!"ECDH-X25519" = some t ∧ t.name = b!"ECDH-X25519" ∧ t.purpose.usesSignets = true :=
      ⟨_, rfl, rfl, rfl⟩
    obtain ⟨t, ht, hn, hu⟩ := ht
    have hl := toyCodec_uses.load b!"ECDH-X25519" (1 :: (List.replicate 32 7 ++ priv)) true
    rw [hk] at hl
    simp only [Signet.load, Signet.stored, s, ht, hu, hn]
    simp only [hl, Except.map, PrivKey.toOption, Option.isSome_none, Bool.false_eq_true, if_false, if_true]
  refine ⟨⟨_, hload, rfl⟩, fun t h => ?_⟩
  obtain ⟨s1, kind, comment, h1, h2, h3, h4⟩ := text_parses toyCodecPrims toyDsd toyDsd_sound false s t h
  have hs1 : s1 = s := by
    unfold Signet.store at h1
    split at h1
    · cases h1; rfl
    · rename_i hx; exact absurd (show s.key.length ≠ 0 by simp [s]) hx
  subst hs1
  have hk : kind = .recipient := by
    have : textHead s = .ok (.recipient, _) := rfl
    rw [this] at h2; cases h2; rfl
  subst hk
  exact ⟨_, h3.trans hload, rfl⟩

end Jess
