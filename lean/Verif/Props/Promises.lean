import Verif.Props.Library
import Verif.Props.Levels

/-!
# C86: what the suites of the library promise is what their letters have
-/

namespace Jess

open Requirements

/-- If all signets are for the one tool there is, the signets of the tool are all signets. -/
theorem one_tool_pairs {ts : List ToolInst} {l : List Signet} (h1 : ts.length ≤ 1) (hu : ∀ k ∈ l, ∃ t ∈ ts, t.info.name = k.scheme) :
    (toolPairs ts (fun t => ofScheme l t.info.name)).map (·.2) = l ∧
    ∀ x ∈ toolPairs ts (fun t => ofScheme l t.info.name), x.1.info.name = x.2.scheme := by
  cases ts with
  | nil =>
    cases l with
    | nil => exact ⟨rfl, by intro x hx; cases hx⟩
    | cons k l => obtain ⟨t, ht, _⟩ := hu k (by simp); cases ht
  | cons t ts =>
    have : ts = [] := List.eq_nil_of_length_eq_zero (by simp only [List.length_cons] at h1; omega)
    subst this
    have hall : ∀ k ∈ l, k.scheme = t.info.name := by
      intro k hk; obtain ⟨u, hu, hn⟩ := hu k hk
      rw [List.mem_singleton] at hu; subst hu; exact hn.symm
    have he : toolPairs [t] (fun t => ofScheme l t.info.name) = l.map (fun k => (t, k)) := by
      simp only [toolPairs, List.flatMap_cons, List.flatMap_nil, List.append_nil, ofScheme_all hall]
    rw [he, List.map_map]
    constructor
    · exact List.map_id' l
    · intro x hx; obtain ⟨k, hk, rfl⟩ := List.mem_map.mp hx; exact (hall k hk).symm

theorem signAll_seals {P : Prims} {rng : Rng} {fed : Bytes} : ∀ {xs : List (ToolInst × Signet)} {ctr : Nat} {sigs : List Seal},
    signAll P rng fed ctr xs = .ok sigs → sigs.map (fun s => (s.scheme, s.id)) = xs.map (fun x => (x.1.info.name, x.2.id))
  | [], _, _, h => by cases h; rfl
  | (t, k) :: xs, ctr, sigs, h => by
    simp only [signAll, bind_ok_iff] at h
    obtain ⟨sig, _, rest, hr, he⟩ := h
    cases he
    simp [signAll_seals hr]

/-- The tools of the registered suites, by what the suites promise. -/
theorem registry_tools : ∀ su ∈ suiteRegistry,
    ((instsOf su).filter (fun t => t.info.purpose = .keyExchange)).length +
      ((instsOf su).filter (fun t => t.info.purpose = .keyEncapsulation)).length ≤ 1 ∧
    (Confidentiality ∉ su.provides → (∀ t ∈ instsOf su, t.info.purpose = .signing) ∧ instsOf su ≠ []) ∧
    (Confidentiality ∈ su.provides → RecipientAuthentication ∈ su.provides ∧ Integrity ∈ su.provides ∧ ∃ t ∈ instsOf su, t.info.purpose = .integratedCipher) ∧
    (SenderAuthentication ∈ su.provides → (∃ t ∈ instsOf su, t.info.purpose = .signing) ∨
      ∀ t ∈ instsOf su, t.info.purpose ≠ .keyExchange ∧ t.info.purpose ≠ .keyEncapsulation) ∧
    (SenderAuthentication ∉ su.provides → ∀ t ∈ instsOf su, t.info.purpose ≠ .signing) := by
  decide +kernel

theorem map_of_all2 {α β γ : Type} {f : α → γ} {g : β → γ} {as : List α} {bs : List β} (h : All2 (fun a b => f a = g b) as bs) :
    as.map f = bs.map g := by
  induction h with
  | nil => rfl
  | cons h _ ih => simp only [List.map_cons, h, ih]

/-- What the key seals of a letter say. -/
def sealLabels (l : List Seal) : List (Bytes × Bytes) := l.map (fun x => (x.scheme, x.id))

/-- A seal for each secret and each recipient of an envelope: first for the keys, then for the passwords, then for the recipients (specification). -/
def expectedSeals (e : Envelope) : List (Bytes × Bytes) :=
  (e.secrets.filter (fun k => k.scheme = schemeKey)).map (fun k => (schemeKey, k.id)) ++
  (e.secrets.filter (fun k => k.scheme = schemePassword)).map (fun k => (schemePassword, k.id)) ++
  e.recipients.map (fun k => ([], k.id))

theorem ofScheme_filter {l : List Signet} {n : Bytes} (hn : n ≠ []) : ofScheme l n = l.filter (fun k => k.scheme = n) := by
  have : n.isEmpty = false := by cases n with | nil => exact absurd rfl hn | cons _ _ => rfl
  unfold ofScheme
  apply List.filter_congr
  intro k _
  by_cases h : k.scheme = n <;> simp [this, h]

theorem closing_labels {P : Prims} {cfg : Config} {rng : Rng} {s : Session} (hs : newSession P cfg s.env = .ok s)
    (hr : s.suite ∈ suiteRegistry) {nonce : Bytes} {km : KM} (h : setupClosing P cfg rng s nonce = .ok km) :
    sealLabels km.keys = expectedSeals s.env ∧ km.material.length = km.keys.length := by
  obtain ⟨hnd, hone⟩ := registered_session hs hr
  have hreg := (registry_tools s.suite hr).1
  rw [← session_insts hs] at hreg
  have hqs : (s.queue .keyExchange ++ s.queue .keyEncapsulation).length ≤ 1 := by
    rw [List.length_append]; exact hreg
  have hrec := (no_signet_ignored P cfg s.env s hs hnd).recipients
  have hpairs := one_tool_pairs (l := s.env.recipients) hqs (by
    intro k hk
    obtain ⟨t, ht, hp, hn⟩ := hrec k hk
    refine ⟨t, ?_, hn⟩
    rcases hp with hp | hp
    · exact List.mem_append.mpr (.inl (mem_queue.mpr ⟨ht, hp⟩))
    · exact List.mem_append.mpr (.inr (mem_queue.mpr ⟨ht, hp⟩)))
  rw [toolPairs_append, ← pairs_eq, ← pairs_eq, List.map_append] at hpairs
  rw [setupClosing_eq P cfg rng s nonce (hone _ (by simp)) (hone _ (by simp))] at h
  simp only [closingMaterial, bind_ok_iff] at h
  obtain ⟨pws, h1, kxs, h2, kes, h3, h4⟩ := h
  cases h4
  have e2 : kxs.map (fun r => (r.2.scheme, r.2.id)) = (s.pairs .keyExchange).map (fun x => (([] : Bytes), x.2.id)) := by
    refine (map_of_all2 (f := fun x : ToolInst × Signet => (([] : Bytes), x.2.id)) (g := fun r : Bytes × Seal => (r.2.scheme, r.2.id))
      (collectFrom_all2 h2 ?_)).symm
    intro j x y _ hy
    simp only [closeKXKey, kxOffer, bind_ok_iff] at hy
    obtain ⟨r, ⟨a, _, b, _, c, _, d, _, he⟩, hy⟩ := hy
    cases he; cases hy; rfl
  have e3 : kes.map (fun r => (r.2.scheme, r.2.id)) = (s.pairs .keyEncapsulation).map (fun x => (([] : Bytes), x.2.id)) := by
    refine (map_of_all2 (f := fun x : ToolInst × Signet => (([] : Bytes), x.2.id)) (g := fun r : Bytes × Seal => (r.2.scheme, r.2.id))
      (collectFrom_all2 h3 ?_)).symm
    intro j x y _ hy
    simp only [keOffer, bind_ok_iff] at hy
    obtain ⟨a, _, b, _, hy⟩ := hy
    cases hy; rfl
  have e4 : s.env.recipients.map (fun k => (([] : Bytes), k.id)) =
      (s.pairs .keyExchange).map (fun x => (([] : Bytes), x.2.id)) ++ (s.pairs .keyEncapsulation).map (fun x => (([] : Bytes), x.2.id)) := by
    conv => lhs; rw [← hpairs.1]
    rw [List.map_append, List.map_map, List.map_map]; rfl
  constructor
  · simp only [sealLabels, expectedSeals, List.map_append, List.map_map, e4, ← e2, ← e3, List.append_assoc]
    rw [ofScheme_filter (by decide), ofScheme_filter (by decide)]
    rfl
  · have c1 := collectFrom_length h1
    simp only [List.length_append, List.length_map, c1]

/-- What a closed letter has, by what the suite of the session promises (specification). `s.env` is the envelope with its signets prepared
(see C50). -/
structure LetterHas (P : Prims) (s : Session) (data : Bytes) (l : Letter) : Prop where
  /-- one key seal for each secret and recipient, if the suite encrypts -/
  seals : sealLabels l.keys = expectedSeals s.env
  /-- one signature of each sender, in order -/
  signatures : l.signatures.map (fun x => (x.scheme, x.id)) = s.env.senders.map (fun k => (k.scheme, k.id))
  /-- Confidentiality: the data is sealed with a key derived from one secret for each key seal, and there is at least one. -/
  encrypted : Confidentiality ∈ s.suite.provides → l.keys ≠ [] ∧ ∃ material key nonce, material.length = l.keys.length ∧
    CipherKey P s l material key nonce ∧ P.aeadSeal b!"CHACHA20-POLY1305" key nonce l.compileAD data = .ok l.data
  /-- No confidentiality: the data is as it was. -/
  plain : Confidentiality ∉ s.suite.provides → l.data = data ∧ l.keys = [] ∧ l.signatures ≠ []
  /-- Sender authentication: a signature, or nobody but the holders of a shared secret can have made the letter. -/
  sender : SenderAuthentication ∈ s.suite.provides → l.signatures ≠ [] ∨ (s.env.secrets ≠ [] ∧ s.env.recipients = [])
  unsigned : SenderAuthentication ∉ s.suite.provides → l.signatures = []
  /-- Recipient authentication: there is a key seal, and so a key that only recipients or holders of a shared secret know. -/
  recipient : RecipientAuthentication ∈ s.suite.provides → Confidentiality ∈ s.suite.provides ∧ l.keys ≠ []
  /-- Integrity: sealed by an authenticating cipher, or signed. -/
  integrity : Integrity ∈ s.suite.provides → Confidentiality ∈ s.suite.provides ∨ l.signatures ≠ []

theorem sign_labels {P : Prims} {cfg : Config} {rng : Rng} {s : Session} (hs : newSession P cfg s.env = .ok s) (hr : s.suite ∈ suiteRegistry)
    {st : SState} {ctr : Nat} {ad : Bytes} {l l' : Letter} (hl : l.signatures = []) (h : (signLetter P rng s st ctr ad l).2 = .ok l') :
    l'.signatures.map (fun x => (x.scheme, x.id)) = s.env.senders.map (fun k => (k.scheme, k.id)) ∧
      l'.keys = l.keys ∧ l'.data = l.data := by
  obtain ⟨hnd, hone⟩ := registered_session hs hr
  have hsend := (no_signet_ignored P cfg s.env s hs hnd).senders
  have hpairs := one_tool_pairs (l := s.env.senders) (hone .signing (by simp)) (by
    intro k hk
    obtain ⟨t, ht, hp, hn⟩ := hsend k hk
    exact ⟨t, mem_queue.mpr ⟨ht, hp⟩, hn⟩)
  rw [← signerPairs_eq] at hpairs
  unfold signLetter at h
  split at h
  · rename_i hq
    cases h
    have hq : s.queue .signing = [] := List.isEmpty_iff.mp hq
    have : s.env.senders = [] := by
      rw [← hpairs.1, signerPairs_eq, hq]; rfl
    rw [hl, this]
    exact ⟨rfl, rfl, rfl⟩
  · simp only at h
    split at h
    · cases h
    · rename_i sigs hsg
      cases h
      refine ⟨?_, rfl, rfl⟩
      simp only [hl, List.nil_append]
      rw [signAll_seals hsg]
      conv => rhs; rw [← hpairs.1, List.map_map]
      apply List.map_congr_left
      intro x hx
      simp only [Function.comp, hpairs.2 x hx]

/-- C86. A letter that a session for an envelope of a caller closes has what its suite, which is one of the library's, promises, with a
seal for every secret and every recipient and a signature of every sender of the envelope. -/
theorem closed_letter_has (P : Prims) (cfg : Config) (w : World) (rng : Rng) (e : Envelope) (he : e.suite = none) (s : Session)
    (hs : correspondence P cfg w suiteRegistry e = .ok s) (data : Bytes) (l : Letter)
    (hc : (s.close P cfg rng s.initState data).2 = .ok l) :
    LibrarySession P cfg e s ∧ LetterHas P s data l := by
  have hls := library_session he hs
  refine ⟨hls, ?_⟩
  have hm := hls.made
  have hreg := registry_tools s.suite hls.mem
  rw [← session_insts hm] at hreg
  obtain ⟨_, hplain, hconf, hsend, hnosend⟩ := hreg
  have hk := session_kdf P cfg s.env s hm
  have hsig := session_tools_have_signets P cfg s.env s hm
  have hused := no_signet_ignored P cfg s.env s hm (registered_session hm hls.mem).1
  -- the two ways through Close
  have key : (Confidentiality ∈ s.suite.provides → sealLabels l.keys = expectedSeals s.env ∧
        l.signatures.map (fun x => (x.scheme, x.id)) = s.env.senders.map (fun k => (k.scheme, k.id))) ∧
      (Confidentiality ∉ s.suite.provides → l.keys = [] ∧ l.data = data ∧
        l.signatures.map (fun x => (x.scheme, x.id)) = s.env.senders.map (fun k => (k.scheme, k.id))) := by
    have h := hc
    unfold Session.close at h
    split at h
    · cases h
    · rename_i nonce hnon
      dsimp only at h
      split at h
      · rename_i hkdf
        have hnk := (kdf_none_iff s).mp hkdf
        split at h
        · cases h
        · obtain ⟨a, b, c⟩ := sign_labels hm hls.mem rfl h
          refine ⟨fun hcf => ?_, fun _ => ⟨b, c, a⟩⟩
          obtain ⟨_, _, t, ht, hp⟩ := hconf hcf
          obtain ⟨u, hu, hup⟩ := hk.1.mp ⟨t, ht, .inr (.inl hp)⟩
          exact absurd hup (hnk u hu)
      · rename_i k hkdf
        split at h
        · cases h
        · rename_i km hkm
          split at h
          · split at h
            · cases h
            · rename_i st1 l1 henc
              have hl1 : l1.signatures = [] ∧ l1.keys = km.keys := by
                unfold encryptLetter at henc
                split at henc
                · cases henc
                · simp only [Prod.mk.injEq, protect, bind_ok_iff] at henc
                  obtain ⟨_, _, _, _, _, _, _, h4⟩ := henc
                  cases h4
                  exact ⟨rfl, rfl⟩
              obtain ⟨a, b, _⟩ := sign_labels hm hls.mem hl1.1 h
              refine ⟨fun _ => ⟨?_, a⟩, fun hcf => ?_⟩
              · rw [b, hl1.2]; exact (closing_labels hm hls.mem hkm).1
              · have hall := (hplain hcf).1
                have : s.kdf = none := (kdf_none_iff s).mpr fun t ht hp => by rw [hall t ht] at hp; cases hp
                rw [this] at hkdf; cases hkdf
          · cases h
  have hsigs : l.signatures.map (fun x => (x.scheme, x.id)) = s.env.senders.map (fun k => (k.scheme, k.id)) := by
    by_cases hcf : Confidentiality ∈ s.suite.provides
    · exact (key.1 hcf).2
    · exact (key.2 hcf).2.2
  have hsne : s.env.senders ≠ [] → l.signatures ≠ [] := by
    intro h hn
    rw [hn] at hsigs
    exact h (List.map_eq_nil_iff.mp hsigs.symm)
  have hsigned : (∃ t ∈ s.insts, t.info.purpose = .signing) → l.signatures ≠ [] := by
    rintro ⟨t, ht, hp⟩
    obtain ⟨u, hu, _⟩ := (hsig t ht).2.2 hp
    exact hsne (List.ne_nil_of_mem hu)
  have hplainNone : Confidentiality ∉ s.suite.provides → s.env.secrets = [] ∧ s.env.recipients = [] := by
    intro hcf
    have hall := (hplain hcf).1
    have hno : ¬ SessionHas s Confidentiality := by
      rintro (⟨t, ht, ha⟩ | ⟨_, h | h⟩)
      · rw [hall t ht] at ha; exact absurd ha (by decide)
      · exact absurd h (by decide)
      · exact absurd h (by decide)
    constructor
    · apply List.eq_nil_iff_forall_not_mem.mpr
      intro k hk
      rcases hused.secrets k hk with h | ⟨_, t, ht, hp⟩
      · exact hno ((session_no_confidentiality_without_integrity P cfg s.env s hm).1 (.inr ⟨⟨k, hk, h⟩, .inr rfl⟩))
      · rw [hall t ht] at hp; cases hp
    · apply List.eq_nil_iff_forall_not_mem.mpr
      intro k hk
      obtain ⟨t, ht, hp, _⟩ := hused.recipients k hk
      rw [hall t ht] at hp
      rcases hp with h | h <;> cases h
  have hkne : Confidentiality ∈ s.suite.provides → l.keys ≠ [] := by
    intro hcf
    obtain ⟨hra, _, t, ht, hp⟩ := hconf hcf
    intro hn
    have hl := (key.1 hcf).1
    rw [hn] at hl
    have hl := hl.symm
    simp only [sealLabels, expectedSeals, List.map_nil, List.append_eq_nil_iff, List.map_eq_nil_iff] at hl
    obtain ⟨⟨n1, n2⟩, n3⟩ := hl
    rcases session_key_source_partial P cfg s.env s hm ⟨t, ht, .inr (.inl hp)⟩ (.inl hra) with ⟨u, hu, hpu⟩ | ⟨k, hk, hks⟩
    · rcases hpu with hpu | hpu
      · obtain ⟨k, hk, hks⟩ := (hsig u hu).1 hpu
        have : k ∈ s.env.secrets.filter (fun k => k.scheme = schemePassword) := List.mem_filter.mpr ⟨hk, by simpa using hks⟩
        rw [n2] at this; cases this
      · obtain ⟨k, hk, _⟩ := (hsig u hu).2.1 hpu
        rw [n3] at hk; cases hk
    · have : k ∈ s.env.secrets.filter (fun k => k.scheme = schemeKey) := List.mem_filter.mpr ⟨hk, by simpa using hks⟩
      rw [n1] at this; cases this
  constructor
  · by_cases hcf : Confidentiality ∈ s.suite.provides
    · exact (key.1 hcf).1
    · rw [(key.2 hcf).1]
      simp only [expectedSeals, (hplainNone hcf).1, (hplainNone hcf).2]
      rfl
  · exact hsigs
  · intro hcf
    obtain ⟨hra, _, t, ht, hp⟩ := hconf hcf
    obtain ⟨mat, key', nonce, hck, hse, _, _, _, _, km, hkm, hmat, hkeys⟩ := close_authenticates P cfg rng s hm hls.mem hcf data l hc
    refine ⟨hkne hcf, mat, key', nonce, ?_, hck, hse⟩
    · rw [← hmat, ← hkeys]; exact (closing_labels hm hls.mem hkm).2
  · intro hcf
    obtain ⟨a, b, _⟩ := key.2 hcf
    obtain ⟨hall, hne⟩ := hplain hcf
    refine ⟨b, a, hsigned ?_⟩
    obtain ⟨t, ts, hts⟩ := List.exists_cons_of_ne_nil hne
    exact ⟨t, by rw [hts]; simp, hall t (by rw [hts]; simp)⟩
  · intro hsa
    rcases hsend hsa with h | h
    · exact .inl (hsigned h)
    · by_cases hex : ∃ t ∈ s.insts, t.info.purpose = .signing
      · exact .inl (hsigned hex)
      refine .inr ⟨?_, ?_⟩
      · obtain ⟨_, _, hp, _⟩ := session_provides P cfg s.env s hm
        rcases hp _ hsa with ⟨t, ht, ha⟩ | ⟨⟨k, hk, _⟩, _⟩
        · have : t.info.purpose = .passDerivation ∨ t.info.purpose = .signing := by
            revert ha; cases t.info.purpose <;> decide
          rcases this with h' | h'
          · obtain ⟨k, hk, _⟩ := (hsig t ht).1 h'
            exact List.ne_nil_of_mem hk
          · exact absurd ⟨t, ht, h'⟩ hex
        · exact List.ne_nil_of_mem hk
      · apply List.eq_nil_iff_forall_not_mem.mpr
        intro k hk
        obtain ⟨t, ht, hp, _⟩ := hused.recipients k hk
        rcases hp with hp | hp
        · exact (h t ht).1 hp
        · exact (h t ht).2 hp
  · intro hsa
    have : s.env.senders = [] := by
      apply List.eq_nil_iff_forall_not_mem.mpr
      intro k hk
      obtain ⟨t, ht, hp, _⟩ := hused.senders k hk
      exact hnosend hsa t ht hp
    rw [this] at hsigs
    exact List.map_eq_nil_iff.mp hsigs
  · intro hra
    refine (fun hcf : Confidentiality ∈ s.suite.provides => ⟨hcf, hkne hcf⟩) <| Decidable.byContradiction fun hcf => ?_
    have hall := (hplain hcf).1
    obtain ⟨_, _, hp, _⟩ := session_provides P cfg s.env s hm
    rcases hp _ hra with ⟨t, ht, ha⟩ | ⟨⟨k, hk, _⟩, _⟩
    · rw [hall t ht] at ha; exact absurd ha (by decide)
    · rw [(hplainNone hcf).1] at hk; cases hk
  · intro _
    by_cases hcf : Confidentiality ∈ s.suite.provides
    · exact .inl hcf
    · obtain ⟨hall, hne⟩ := hplain hcf
      obtain ⟨t, ts, hts⟩ := List.exists_cons_of_ne_nil hne
      exact .inr (hsigned ⟨t, by rw [hts]; simp, hall t (by rw [hts]; simp)⟩)

/-- The hypotheses of C86 are met by a signed and encrypted letter and by one that is encrypted for a shared key; a suite that only signs leaves
the data as it is and refuses a secret. -/
theorem closed_letter_has_example :
    (match correspondence toyPrims toyConfig toyWorld suiteRegistry honestEnvelope with
      | .ok s => (match (s.close toyPrims toyConfig toyRng s.initState b!"hello").2 with
          | .ok l => decide (sealLabels l.keys = [([], b!"bob")]) && decide (l.signatures.map (fun x => (x.scheme, x.id)) = [(b!"Ed25519", b!"alice")]) &&
              decide (l.data ≠ b!"hello")
          | .error _ => false)
      | .error _ => false) = true ∧
    (match correspondence toyPrims toyConfig toyWorld suiteRegistry (toyEnvelope b!"signfile_v1" [] [b!"alice"] []) with
      | .ok s => (match (s.close toyPrims toyConfig toyRng s.initState b!"hello").2 with
          | .ok l => decide (l.keys = []) && decide (l.signatures.map (fun x => (x.scheme, x.id)) = [(b!"Ed25519", b!"alice")]) && decide (l.data = b!"hello")
          | .error _ => false)
      | .error _ => false) = true ∧
    (match correspondence toyPrims toyConfig toyWorld suiteRegistry (toyEnvelope b!"key_v1" [b!"key"] [] []) with
      | .ok s => (match (s.close toyPrims toyConfig toyRng s.initState b!"hello").2 with
          | .ok l => decide (sealLabels l.keys = [(schemeKey, b!"key")]) && decide (l.signatures = []) && decide (l.data ≠ b!"hello")
          | .error _ => false)
      | .error _ => false) = true ∧
    correspondence toyPrims toyConfig toyWorld suiteRegistry (toyEnvelope b!"signfile_v1" [b!"key"] [b!"alice"] []) = .error .requirements := by
  decide +kernel

end Jess
