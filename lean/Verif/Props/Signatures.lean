import Verif.Lemmas.Opening
import Verif.Lemmas.Material

/-!
# C13–C15: sender authentication, verification and requirements
-/

namespace Jess

open Requirements

/-- The public key that the trust store of the caller holds for a signer ID and signing algorithm (specification). -/
def PublicKeyOf (P : Prims) (w : World) (id tool pub : Bytes) : Prop :=
  ∃ get n k, w.store = some get ∧ get id true = .ok n ∧ n.protection = false ∧ n.scheme = tool ∧
    n.load P = .ok k ∧ k.loadedPub = some pub

/-- The bytes a signature is made over: the data, the associated data and the MACs of the letter. -/
def Letter.signedData (l : Letter) : Bytes := l.data ++ l.compileSigningData []

/-- A signature of the letter is valid for the public key which the caller's trust store holds for the stated signer
(specification); tool and hash function are those of the suite. -/
def SignatureVerified (P : Prims) (w : World) (suite : Suite) (l : Letter) (sig : Seal) : Prop :=
  ∃ tid ∈ suite.tools, ∃ t, getTool (parseToolID tid).1 = some t ∧ t.purpose = .signing ∧
    ∃ h, getHash (parseToolID tid).2 = some h ∧
    ∃ pub, PublicKeyOf P w sig.id t.name pub ∧ P.verify t.name h.name pub (P.hash h.name l.signedData) sig.value = true

theorem signing_tools_hash : ∀ t ∈ toolTable, t.purpose = .signing → t.needsManagedHasher = true := by decide +kernel

theorem signing_inst {tid : Bytes} {t : ToolInst} (h : makeInst tid = .ok t) (hp : t.info.purpose = .signing) :
    ∃ hh, t.hash = some hh ∧ getHash (parseToolID tid).2 = some hh := by
  obtain ⟨h1, h2, h3, h4, h5⟩ := makeInst_spec h
  have hm := signing_tools_hash _ h2 hp
  unfold resolveHash at h4
  rw [hm, hp] at h4
  simp only [if_true, or_true] at h4
  cases hg : getHash (parseToolID tid).2 with
  | none => rw [hg] at h4; cases h4
  | some hh =>
    rw [hg] at h4
    simp only [Except.ok.injEq] at h4
    exact ⟨hh, h4.symm, rfl⟩

theorem signingData_ad (l : Letter) (s : Session) : l.compileSigningData (s.adOf l) = l.compileSigningData [] := by
  unfold Letter.compileSigningData Session.adOf
  split
  · by_cases h : l.compileAD.length = 0
    · simp [h]
    · simp [h]
  · rfl

theorem verifyAll_ok {P : Prims} {fed : Bytes} {sigs : List Seal} : ∀ {xs : List (ToolInst × Signet)} {i : Nat},
    verifyAll P fed sigs i xs = .ok () → ∀ {j : Nat} {x : ToolInst × Signet}, xs[j]? = some x →
      ∃ sl, sigs[i + j]? = some sl ∧ toolVerify P x.1 (P.hash x.1.hashName fed) sl.value x.2 = .ok ()
  | [], _, _, j, x, hx => by simp at hx
  | (t, k) :: xs, i, h, j, x, hx => by
    rw [verifyAll] at h
    split at h
    · cases h
    · rename_i sl hsl
      split at h
      · cases h
      · rename_i hv
        cases j with
        | zero => simp at hx; subst hx; exact ⟨sl, by simpa using hsl, hv⟩
        | succ j =>
          simp at hx
          obtain ⟨sl', h1, h2⟩ := verifyAll_ok h hx
          exact ⟨sl', by rw [show i + (j + 1) = i + 1 + j by omega]; exact h1, h2⟩

theorem toolVerify_ok {P : Prims} {t : ToolInst} {digest sig : Bytes} {k : Signet} (h : toolVerify P t digest sig k = .ok ()) :
    ∃ pub, k.loadedPub = some pub ∧ P.verify t.info.name t.hashName pub digest sig = true := by
  unfold toolVerify at h
  split at h
  · cases h
  · rename_i pub hp
    by_cases hv : P.verify t.info.name t.hashName pub digest sig = true
    · exact ⟨pub, hp, hv⟩
    · simp only [hv, if_false, Bool.false_eq_true] at h
      (repeat' split at h) <;> cases h

/-- The prepared senders of a letter that opens: each one was looked up by the ID in the signature. -/
theorem senders_looked_up {P : Prims} {cfg : Config} {w : World} {reg : List Suite} {reqs : Option Requirements} {l : Letter}
    {s : Session} (ho : OpenedBy P cfg w reg reqs l s) (hw : w.KeepsScheme) (hu : AllSignetsUsed s) :
    All2 (fun sig k => k.scheme ∈ (s.queue .signing).map (·.info.name) ∧
      ∃ get n, w.store = some get ∧ get sig.id true = .ok n ∧ n.protection = false ∧ n.scheme = k.scheme ∧
        n.load P = .ok k) l.signatures s.env.senders := by
  have hall := prepSignets_flags P w s.suite.securityLevel _ _ _ ho.senders
  have hsch : ∀ k ∈ s.env.senders, k.scheme ≠ schemeKey ∧ k.scheme ≠ schemePassword ∧ k.scheme ∈ (s.queue .signing).map (·.info.name) := by
    intro k hk
    obtain ⟨t, ht, hp, hn⟩ := hu.senders k hk
    obtain ⟨tid, _, hmk⟩ := inst_tool ho.session ht
    have := toolTable_nonneg t.info (makeInst_spec hmk).2.1
    rw [← hn]
    exact ⟨this.2.2.1, this.2.2.2, List.mem_map_of_mem (mem_queue.mpr ⟨ht, hp⟩)⟩
  have hnokey : ¬ ∃ k ∈ l.signatures.map (stubOf l.version), k.scheme = schemeKey := by
    rintro ⟨st, hst, hk⟩
    obtain ⟨o, hos, hpo⟩ := hall.mem_left hst
    have : o.scheme = st.scheme := by
      have hne : ¬ (st.scheme = [] ∧ st.key = []) := by rw [hk]; rintro ⟨h, _⟩; revert h; decide
      rcases hpo with h | ⟨h, _⟩
      · exact (prepOne_scheme hw h).resolve_right hne
      · exact (prepOne_scheme hw h).resolve_right hne
    exact (hsch o hos).1 (by rw [this, hk])
  have hall2 : All2 (fun st o => prepOne P w s.suite.securityLevel true st = .ok o) (l.signatures.map (stubOf l.version)) s.env.senders :=
    hall.mono fun a b h => h.resolve_right (fun h => hnokey h.2)
  rw [All2.map_left] at hall2
  refine hall2.mono_mem ?_
  intro sig hsig k hk h
  have hks := hsch k hk
  have hpw : (stubOf l.version sig).scheme ≠ schemePassword := by
    intro hp
    have hne : ¬ ((stubOf l.version sig).scheme = [] ∧ (stubOf l.version sig).key = []) := by
      rw [hp]; rintro ⟨h, _⟩; revert h; decide
    have := (prepOne_scheme hw h).resolve_right hne
    exact hks.2.1 (this.trans hp)
  obtain ⟨get, n, h1, h2, _, _, h5⟩ := prepOne_fetch (s := stubOf l.version sig) rfl hpw h
  obtain ⟨p1, p2, _, _, p5⟩ := finishPrep_spec h5
  have hk' : (stubOf l.version sig).scheme ≠ schemeKey := fun hk => hnokey ⟨_, List.mem_map_of_mem hsig, hk⟩
  rw [if_neg hk'] at h2
  refine ⟨hks.2.2, get, n, h1, h2, p1, p2.symm, ?_⟩
  rcases p5 with ⟨h, _⟩ | ⟨_, _, h⟩
  · rw [← p2] at h
    rcases h with h | h
    · exact absurd h hks.1
    · exact absurd h hks.2.1
  · exact h

/-- In a session with one signing tool that opens a letter, passing the signature check means that there are signatures and
that all of them are verified. -/
theorem signatures_checked {P : Prims} {cfg : Config} {w : World} {reqs : Option Requirements} {l : Letter}
    {s : Session} (ho : OpenedBy P cfg w suiteRegistry reqs l s) (hw : w.KeepsScheme)
    (hc : (checkSignatures P s s.initState l).2 = .ok ()) (hq : s.queue .signing ≠ []) :
    l.signatures ≠ [] ∧ ∀ sig ∈ l.signatures, SignatureVerified P w s.suite l sig := by
  have hmem := List.mem_of_find?_eq_some ho.suite
  obtain ⟨hnd, hone⟩ := registered_session ho.session hmem
  have hu := no_signet_ignored P cfg _ s ho.session hnd
  have hlook := senders_looked_up ho hw hu
  have h1 := hone .signing (by simp)
  cases hqs : s.queue .signing with
  | nil => exact absurd hqs hq
  | cons t ts =>
    have hts : ts = [] := by
      rw [hqs] at h1; simp at h1; exact h1
    subst hts
    have ht : t ∈ s.insts ∧ t.info.purpose = .signing := mem_queue.mp (by rw [hqs]; simp)
    have hsch : ∀ k ∈ s.env.senders, k.scheme = t.info.name := by
      intro k hk
      obtain ⟨sig, _, hm, _⟩ := hlook.mem_right hk
      rw [hqs] at hm; simpa using hm
    have hpairs : s.signerPairs = s.env.senders.map (fun k => (t, k)) := by
      unfold Session.signerPairs
      rw [hqs]
      simp only [List.flatMap_cons, List.flatMap_nil, List.append_nil]
      congr 1
      unfold ofScheme
      rw [List.filter_eq_self]
      intro k hk
      simp [hsch k hk]
    unfold checkSignatures at hc
    rw [if_neg (by rw [hqs]; simp)] at hc
    dsimp only at hc
    split at hc
    · cases hc
    · rename_i hlen
      have hlen : s.env.senders.length = l.signatures.length := by simpa using hlen
      rw [hpairs, signingData_ad] at hc
      have hfed : s.initState.fed = [] := rfl
      rw [hfed, List.nil_append] at hc
      obtain ⟨u, hu1, _⟩ := (session_tools_have_signets P cfg _ s ho.session t ht.1).2.2 ht.2
      refine ⟨?_, ?_⟩
      · intro h0
        rw [h0] at hlen
        have := List.length_eq_zero_iff.mp hlen
        rw [this] at hu1; simp at hu1
      · intro sig hsig
        obtain ⟨i, hi⟩ := List.mem_iff_getElem?.mp hsig
        obtain ⟨k, hk, hm, get, n, g1, g2, g3, g4, g5⟩ := hlook.getElem?_left i hi
        obtain ⟨sl, hsl, hv⟩ := verifyAll_ok hc (j := i) (x := (t, k)) (by simp [hk])
        rw [Nat.zero_add, hi] at hsl
        cases hsl
        obtain ⟨pub, hp1, hp2⟩ := toolVerify_ok hv
        obtain ⟨tid, htid, hmk⟩ := inst_tool ho.session ht.1
        obtain ⟨hh, e1, e2⟩ := signing_inst hmk ht.2
        have hhn : t.hashName = hh.name := by unfold ToolInst.hashName; rw [e1]
        have hks : k.scheme = t.info.name := hsch k (List.mem_of_getElem? hk)
        simp only [hhn] at hp2
        exact ⟨tid, htid, t.info, (makeInst_spec hmk).1, ht.2, hh, e2, pub,
          ⟨get, n, k, g1, g2, g3, by rw [g4, hks], g5, hp1⟩, hp2⟩

/-- C14. `Letter.Verify` succeeds only if the letter has signatures and each of them is valid for the public key the
caller's trust store holds for the stated signer. -/
theorem verify_needs_signature (P : Prims) (cfg : Config) (w : World) (hw : w.KeepsScheme) (reqs : Option Requirements) (l : Letter)
    (h : l.verify P cfg w suiteRegistry reqs = .ok ()) :
    ∃ suite, getSuite suiteRegistry l.suiteID = some suite ∧ l.version = 1 ∧
      l.signatures ≠ [] ∧ ∀ sig ∈ l.signatures, SignatureVerified P w suite l sig := by
  obtain ⟨s, ho, hv⟩ := verify_ok h
  unfold Session.verify at hv
  split at hv
  · cases hv
  · rename_i hver
    split at hv
    · cases hv
    · rename_i hq
      exact ⟨s.suite, ho.suite, Decidable.of_not_not hver, signatures_checked ho hw hv (by simpa using hq)⟩

/-- The shared secret a letter refers to (specification): for a key seal the key that the trust store holds under the seal's
ID, for a password seal what the suite's password tool derives from the password that a password callback provided. -/
def SharedSecret (P : Prims) (w : World) (suite : Suite) (l : Letter) (sl : Seal) (secret : Bytes) : Prop :=
  (sl.scheme = schemeKey ∧ ∃ get n, w.store = some get ∧ get sl.id false = .ok n ∧ n.scheme = schemeKey ∧ secret = n.key) ∨
  (sl.scheme = schemePassword ∧ ∃ tid ∈ suite.tools, ∃ t, getTool (parseToolID tid).1 = some t ∧ t.purpose = .passDerivation ∧
    ∃ k create size, fillPassword w (stubOf l.version sl) create suite.securityLevel = .ok k ∧ k.key ≠ [] ∧
      P.passKdf t.name k.key l.nonce size = .ok secret)

/-- The data was obtained by decrypting with keys that the suite's key derivation tool derived from key material
that includes the secret. -/
def DecryptedWith (P : Prims) (s : Session) (l : Letter) (secret d : Bytes) : Prop :=
  ∃ k material, s.kdf = some k ∧ secret ∈ material ∧ (decryptLetter P s s.initState k material 0 l).2 = .ok d

theorem kdfTool_of_secret {P : Prims} {cfg : Config} {e : Envelope} {s : Session} (h : newSession P cfg e = .ok s)
    (hr : RecipientAuthentication ∈ s.reqs) : s.kdf ≠ none := by
  obtain ⟨suite, is, lv, _, _, _, _, hm, _, _, _, hne, hs, _, _, hf⟩ := (newSession_ok_iff P cfg e s).mp h
  obtain ⟨_, _, f3, f4, f5, _⟩ := (finalChecks_ok_iff cfg s _ _).mp hf
  intro hk
  have hc := f3 hr
  have hlen := f5 hk
  -- all tools are signing tools, which do not provide confidentiality
  have hins : s.insts = is := by rw [hs]; rfl
  have hsu : s.suite = suite := by rw [hs]; rfl
  have hl : is.length = suite.tools.length := by
    have := congrArg List.length hm; simpa using this.symm
  have hall : ∀ t ∈ s.insts, t.info.purpose = .signing := by
    intro t ht
    have := (List.length_filter_eq_length_iff (p := fun t : ToolInst => decide (t.info.purpose = .signing)) (l := s.insts)).mp
      (by
        have h2 : (s.queue .signing).length = s.insts.length := by rw [hlen, hsu, hins, hl]
        exact h2) t ht
    simpa using this
  rw [hs] at hc
  rw [mkSession_reqs] at hc
  rcases hc with ⟨t, ht, hp⟩ | ⟨_, h | h⟩
  · rw [← hs] at ht
    rw [hall t ht] at hp
    revert hp; decide
  · revert h; decide
  · revert h; decide

/-- C13. If `Letter.Open` succeeds and sender authentication was required, then either the letter carries signatures and all
of them are valid for the public keys which the caller's trust store holds for the stated signers, or the data was
decrypted with a key derived from a shared secret (key or password) that the letter refers to. -/
theorem open_sender_authenticated (P : Prims) (cfg : Config) (w : World) (hw : w.KeepsScheme) (reqs : Option Requirements)
    (l : Letter) (d : Bytes) (hreq : SenderAuthentication ∈ reqs.getD full)
    (h : l.open P cfg w suiteRegistry reqs = .ok d) :
    ∃ s : Session, getSuite suiteRegistry l.suiteID = some s.suite ∧
      ((l.signatures ≠ [] ∧ ∀ sig ∈ l.signatures, SignatureVerified P w s.suite l sig) ∨
       (∃ sl ∈ l.keys, sl.id ≠ [] ∧ ∃ secret, SharedSecret P w s.suite l sl secret ∧ DecryptedWith P s l secret d)) := by
  obtain ⟨s, ho, hop⟩ := open_ok h
  refine ⟨s, ho.suite, ?_⟩
  have hmem := List.mem_of_find?_eq_some ho.suite
  obtain ⟨hnd, hone⟩ := registered_session ho.session hmem
  have hu := no_signet_ignored P cfg _ s ho.session hnd
  unfold Session.open at hop
  split at hop
  · cases hop
  · have hclean := checkSignatures_clean (P := P) (clean_init s) l
    cases hcs : checkSignatures P s s.initState l with
    | mk st r =>
    rw [hcs] at hop hclean
    cases r with
    | error e => cases hop
    | ok u =>
    dsimp only at hop
    by_cases hq : s.queue .signing = []
    case neg =>
      left
      exact signatures_checked ho hw (by rw [hcs]) hq
    right
    -- a secret must provide the sender authentication
    have hS := (session_provides P cfg _ s ho.session).2.2.1 _ (ho.reqs _ hreq)
    have hsec : (∃ t ∈ s.insts, t.info.purpose = .passDerivation) ∨ (∃ k ∈ s.env.secrets, k.scheme = schemeKey) := by
      rcases hS with ⟨t, ht, hp⟩ | ⟨hk, _⟩
      · left
        refine ⟨t, ht, ?_⟩
        cases hpp : t.info.purpose <;> rw [hpp] at hp <;> first | rfl | (revert hp; decide) | skip
        exact absurd (mem_queue.mpr ⟨ht, hpp⟩) (by rw [hq]; simp)
      · exact Or.inr hk
    have hR : RecipientAuthentication ∈ s.reqs := by
      obtain ⟨suite, is, lv, _, _, _, _, _, _, _, _, _, hs, _⟩ := (newSession_ok_iff P cfg _ s).mp ho.session
      rw [hs, mkSession_reqs, ← hs]
      rcases hsec with ⟨t, ht, hp⟩ | hk
      · left; exact ⟨t, ht, by rw [hp]; decide⟩
      · right; exact ⟨hk, Or.inr rfl⟩
    have hkdf := kdfTool_of_secret ho.session hR
    cases hk : s.kdf with
    | none => exact absurd hk hkdf
    | some k =>
    rw [hk] at hop
    dsimp only at hop
    rw [setupOpening_eq P cfg s l (hone _ (by simp)) (hone _ (by simp))] at hop
    split at hop
    · cases hop
    · rename_i mat hmat
      split at hop
      · split at hmat
        · cases hmat
        · have hdec : (decryptLetter P s s.initState k mat 0 l).2 = .ok d := by
            rw [← (decryptLetter_clean (P := P) hclean.1 k mat 0 l).2]; exact hop
          simp only [openingMaterial, bind_ok_iff] at hmat
          obtain ⟨pws, hpws, kxs, _, kes, _, hm⟩ := hmat
          cases hm
          have hall := prepSignets_flags P w s.suite.securityLevel _ _ _ ho.secrets
          have hstub : ∀ st ∈ l.secretStubs, ∃ sl ∈ l.keys, sl.id ≠ [] ∧ (sl.scheme = schemeKey ∨ sl.scheme = schemePassword) ∧
              st = stubOf l.version sl := by
            intro st hst
            obtain ⟨sl, hsl, rfl⟩ := List.mem_map.mp hst
            rw [List.mem_filter] at hsl
            simp only [Seal.isSecret, Bool.and_eq_true, Bool.or_eq_true, beq_iff_eq, Bool.not_eq_true', List.isEmpty_eq_false_iff] at hsl
            exact ⟨sl, hsl.1, hsl.2.1, hsl.2.2, rfl⟩
          have hpick : ∀ u ∈ s.env.secrets, ∃ sl ∈ l.keys, sl.id ≠ [] ∧ u.scheme = sl.scheme ∧ ∃ flag,
              prepOne P w s.suite.securityLevel flag (stubOf l.version sl) = .ok u := by
            intro u hu'
            obtain ⟨st, hst, hpo⟩ := hall.mem_right hu'
            obtain ⟨sl, h1, h2, h3, rfl⟩ := hstub st hst
            have hfl : ∃ flag, prepOne P w s.suite.securityLevel flag (stubOf l.version sl) = .ok u := by
              rcases hpo with h | ⟨h, _⟩
              · exact ⟨_, h⟩
              · exact ⟨_, h⟩
            obtain ⟨flag, hfl'⟩ := hfl
            refine ⟨sl, h1, h2, (prepOne_scheme hw hfl').resolve_right ?_, flag, hfl'⟩
            rintro ⟨h0, _⟩
            have h0 : sl.scheme = [] := h0
            rw [h0] at h3; revert h3; decide
          rcases hsec with ⟨t, ht, hp⟩ | ⟨u, hu1, hu2⟩
          · obtain ⟨u, hu1, hu2⟩ := (session_tools_have_signets P cfg _ s ho.session t ht).1 hp
            obtain ⟨sl, s1, s2, s3, flag, s4⟩ := hpick u hu1
            rw [hu2] at s3
            have hpo : fillPassword w (stubOf l.version sl) (!flag) s.suite.securityLevel = .ok u := by
              have hsc : (stubOf l.version sl).scheme = schemePassword := s3.symm
              simp only [prepOne, hsc] at s4
              simpa [stubOf] using s4
            have hmemu : u ∈ ofScheme s.env.secrets schemePassword := (mem_ofScheme (by decide) u).mpr ⟨hu1, hu2⟩
            obtain ⟨pk, hpk, hpp⟩ := (collectFrom_const.mp hpws).mem_left hmemu
            unfold passKey at hpp
            split at hpp
            · cases hpp
            · rename_i hne
              split at hpp
              · cases hpp
              · rename_i pt hpt
                have hptm : pt ∈ s.queue .passDerivation := List.mem_of_mem_head? hpt
                obtain ⟨pt1, pt2⟩ := mem_queue.mp hptm
                obtain ⟨tid, htid, hmk⟩ := inst_tool ho.session pt1
                refine ⟨sl, s1, s2, pk, Or.inr ⟨s3.symm, tid, htid, pt.info, (makeInst_spec hmk).1, pt2, u, !flag, _, hpo, ?_, hpp⟩,
                  k, _, hk, ?_, hdec⟩
                · intro h0; exact hne (by rw [h0]; rfl)
                · simp [hpk]
          · obtain ⟨sl, s1, s2, s3, flag, s4⟩ := hpick u hu1
            rw [hu2] at s3
            have hsp : (stubOf l.version sl).scheme ≠ schemePassword := by
              intro h0; exact absurd (s3.trans h0) (by decide)
            obtain ⟨get, n, g1, g2, _, _, g5⟩ := prepOne_fetch (s := stubOf l.version sl) rfl hsp s4
            obtain ⟨_, p2, _, p4, _⟩ := finishPrep_spec g5
            have hsk : (stubOf l.version sl).scheme = schemeKey := s3.symm
            rw [if_pos hsk] at g2
            refine ⟨sl, s1, s2, u.key, Or.inl ⟨s3.symm, get, n, g1, g2, by rw [← p2, hu2], p4⟩, k, _, hk, ?_, hdec⟩
            have : u ∈ ofScheme s.env.secrets schemeKey := (mem_ofScheme (by decide) u).mpr ⟨hu1, hu2⟩
            simp only [List.mem_append, List.mem_map]
            exact Or.inl (Or.inl (Or.inl ⟨u, this, rfl⟩))
      · cases hop

/-- C13 for signing suites, without any condition on the requirements: whenever a letter of a suite with a signing tool
opens, all its signatures were verified (and there is at least one). -/
theorem open_verifies_signatures (P : Prims) (cfg : Config) (w : World) (hw : w.KeepsScheme) (reqs : Option Requirements)
    (l : Letter) (d : Bytes) (suite : Suite) (hsu : getSuite suiteRegistry l.suiteID = some suite)
    (hsig : ∃ tid ∈ suite.tools, toolPurpose tid = some .signing)
    (h : l.open P cfg w suiteRegistry reqs = .ok d) :
    l.signatures ≠ [] ∧ ∀ sig ∈ l.signatures, SignatureVerified P w suite l sig := by
  obtain ⟨s, ho, hop⟩ := open_ok h
  have hss : suite = s.suite := by have := ho.suite; rw [hsu] at this; exact Option.some.inj this
  rw [hss] at hsig ⊢
  have hq : s.queue .signing ≠ [] := by
    obtain ⟨tid, htid, hp⟩ := hsig
    obtain ⟨suite', is, lv, h1, _, _, _, hm, _, _, _, _, hs, _⟩ := (newSession_ok_iff P cfg _ s).mp ho.session
    have hins : s.insts = is := by rw [hs]; rfl
    have hsu' : s.suite = suite' := by rw [hs]; rfl
    rw [hsu'] at htid
    obtain ⟨i, hi, he⟩ := mem_map_ok hm htid
    intro h0
    have : i ∈ s.queue .signing := mem_queue.mpr ⟨by rw [hins]; exact hi, by
      have := (makeInst_spec he).1
      rw [toolPurpose, this] at hp
      simpa using hp⟩
    rw [h0] at this; simp at this
  unfold Session.open at hop
  split at hop
  · cases hop
  · cases hcs : checkSignatures P s s.initState l with
    | mk st r =>
    rw [hcs] at hop
    cases r with
    | error e => cases hop
    | ok u => exact signatures_checked ho hw (by rw [hcs]) hq

/-- C15. Opening, verifying or inspecting a letter fails unless its suite provides every required attribute. -/
theorem requirements_enforced (P : Prims) (cfg : Config) (w : World) (reg : List Suite) (r : Requirements) (l : Letter)
    (h : (∃ d, l.open P cfg w reg (some r) = .ok d) ∨ l.verify P cfg w reg (some r) = .ok () ∨ ∃ e, l.envelope reg (some r) = .ok e) :
    ∃ suite ∈ reg, suite.id = l.suiteID ∧ ∀ a ∈ r, a ∈ suite.provides := by
  have hs : ∃ suite, getSuite reg l.suiteID = some suite ∧ ∀ a ∈ r, a ∈ suite.provides := by
    rcases h with ⟨d, h⟩ | h | ⟨e, h⟩
    · obtain ⟨s, ho, _⟩ := open_ok h; exact ⟨_, ho.suite, ho.reqs⟩
    · obtain ⟨s, ho, _⟩ := verify_ok h; exact ⟨_, ho.suite, ho.reqs⟩
    · obtain ⟨_, _, suite, h1, h2, _⟩ := (envelope_ok_iff _ _ _ _).mp h; exact ⟨suite, h1, h2⟩
  obtain ⟨suite, h1, h2⟩ := hs
  exact ⟨suite, (getSuite_sound reg _ suite h1).1, (getSuite_sound reg _ suite h1).2, h2⟩

/-- C15. A nil argument requires all four attributes. -/
theorem nil_requires_all (P : Prims) (cfg : Config) (w : World) (reg : List Suite) (l : Letter)
    (h : (∃ d, l.open P cfg w reg none = .ok d) ∨ l.verify P cfg w reg none = .ok () ∨ ∃ e, l.envelope reg none = .ok e) :
    ∃ suite ∈ reg, suite.id = l.suiteID ∧ Confidentiality ∈ suite.provides ∧ Integrity ∈ suite.provides ∧
      RecipientAuthentication ∈ suite.provides ∧ SenderAuthentication ∈ suite.provides := by
  have hs : ∃ suite ∈ reg, suite.id = l.suiteID ∧ ∀ a ∈ full, a ∈ suite.provides := by
    have : (∃ d, l.open P cfg w reg (some full) = .ok d) ∨ l.verify P cfg w reg (some full) = .ok () ∨
        ∃ e, l.envelope reg (some full) = .ok e := h
    exact requirements_enforced P cfg w reg full l this
  obtain ⟨suite, h1, h2, h3⟩ := hs
  exact ⟨suite, h1, h2, h3 _ (by decide), h3 _ (by decide), h3 _ (by decide), h3 _ (by decide)⟩

/-- A missing attribute is reported as an error, for every letter. -/
theorem missing_requirement_rejected (P : Prims) (cfg : Config) (w : World) (reg : List Suite) (r : Requirements) (l : Letter)
    (suite : Suite) (hs : getSuite reg l.suiteID = some suite) (a : Attr) (ha : a ∈ r) (hna : a ∉ suite.provides) :
    (∃ e, l.open P cfg w reg (some r) = .error e) ∧ (∃ e, l.verify P cfg w reg (some r) = .error e) := by
  have key : ∀ su, getSuite reg l.suiteID = some su → ¬ ∀ a ∈ r, a ∈ su.provides := by
    intro su hsu; rw [hs] at hsu; cases hsu; exact fun h => hna (h a ha)
  constructor
  · cases h : l.open P cfg w reg (some r) with
    | error e => exact ⟨e, rfl⟩
    | ok d => obtain ⟨s, ho, _⟩ := open_ok h; exact absurd ho.reqs (key _ ho.suite)
  · cases h : l.verify P cfg w reg (some r) with
    | error e => exact ⟨e, rfl⟩
    | ok d => obtain ⟨s, ho, _⟩ := verify_ok h; exact absurd ho.reqs (key _ ho.suite)

/-! ## Concrete cases -/

/-- A trust store with a signer, a recipient and a shared key. -/
def toyStore (id : Bytes) (recipient : Bool) : Res Signet :=
  if id = b!"alice" then .ok { version := 1, id := id, scheme := b!"Ed25519", key := [1, 42, 43], isPublic := recipient }
  else if id = b!"bob" then .ok { version := 1, id := id, scheme := b!"ECDH-X25519", key := [1, 8, 9, 10], isPublic := recipient }
  else if id = b!"key" then .ok { version := 1, id := id, scheme := schemeKey, key := List.replicate 32 7 }
  else .error .signetNotFound

/-- The world of the examples: the store, and a password callback. -/
def toyWorld : World :=
  { store := some toyStore, getPw := some (fun s => .ok { s with key := b!"pass" }),
    createPw := some (fun s _ => .ok { s with key := b!"pass" }) }

/-- An envelope that refers to signets. -/
def toyEnvelope (suite : Bytes) (secrets senders recipients : List Bytes) : Envelope :=
  let stub := fun id => ({ id := id, scheme := if id = b!"pw" then schemePassword else [] } : Signet)
  { suiteID := suite, secrets := secrets.map stub, senders := senders.map stub, recipients := recipients.map stub }

/-- Closes with the toy primitives. -/
def toyClose (e : Envelope) (data : Bytes) : Res Letter := do
  let s ← correspondence toyPrims toyConfig toyWorld suiteRegistry e
  (s.close toyPrims toyConfig toyRng s.initState data).2

theorem toyWorld_keeps : toyWorld.KeepsScheme := by
  constructor
  · intro cb s s' h1 h2; cases h1; cases h2; rfl
  · intro cb s l s' h1 h2; cases h1; cases h2; rfl

/-- The hypotheses are met by letters with signatures and by letters with keys and passwords. -/
theorem open_example :
    (match toyClose (toyEnvelope b!"v2" [] [b!"alice"] [b!"bob"]) b!"hello" with
      | .ok l => decide (l.open toyPrims toyConfig toyWorld suiteRegistry none = .ok b!"hello") &&
          decide (l.verify toyPrims toyConfig toyWorld suiteRegistry none = .ok ()) &&
          decide ({ l with signatures := [] }.open toyPrims toyConfig toyWorld suiteRegistry none ≠ .ok b!"hello")
      | .error _ => false) = true ∧
    (match toyClose (toyEnvelope b!"key_v2" [b!"key"] [] []) b!"hello" with
      | .ok l => decide (l.open toyPrims toyConfig toyWorld suiteRegistry none = .ok b!"hello")
      | .error _ => false) = true ∧
    (match toyClose (toyEnvelope b!"pw_v2" [b!"pw"] [] []) b!"hello" with
      | .ok l => decide (l.open toyPrims toyConfig toyWorld suiteRegistry none = .ok b!"hello")
      | .error _ => false) = true := by decide +kernel

end Jess
