import Verif.Props.Tamper
import Verif.Props.KeyFailures
import Verif.Props.NoPanic

/-!
# C84: letters made with the library's suites and at most 16 secrets and recipients are bound as a whole

The field `suite` of an envelope cannot be set by callers (envelope.go:22), so every envelope of a caller has `suite = none` and
its suite is found by its ID among the suites of the library.
-/

namespace Jess

open Requirements

/-- What `Correspondence` returns for an envelope of a caller: a session of the library suite with the ID of the envelope, with as many
secrets, senders and recipients as the envelope has. -/
structure LibrarySession (P : Prims) (cfg : Config) (e : Envelope) (s : Session) : Prop where
  made : newSession P cfg s.env = .ok s
  suite : getSuite suiteRegistry e.suiteID = some s.suite
  mem : s.suite ∈ suiteRegistry
  version : s.env.version = e.version
  suiteID : s.env.suiteID = e.suiteID
  secrets : s.env.secrets.length = e.secrets.length
  senders : s.env.senders.length = e.senders.length
  recipients : s.env.recipients.length = e.recipients.length

theorem library_session {P : Prims} {cfg : Config} {w : World} {e : Envelope} {s : Session} (he : e.suite = none)
    (h : correspondence P cfg w suiteRegistry e = .ok s) : LibrarySession P cfg e s := by
  simp only [correspondence, loadSuite, he, bind_ok_iff] at h
  obtain ⟨⟨e1, su⟩, h1, h2⟩ := h
  split at h1
  · cases h1
  · rename_i su' hsu
    cases h1
    obtain ⟨e2, hp, hn⟩ := h2
    simp only [prepareSignets, bind_ok_iff] at hp
    obtain ⟨a, ha, b, hb, c, hc, hx⟩ := hp
    cases hx
    obtain ⟨g1, g2⟩ := newSession_env hn
    simp only [Option.some.injEq] at g2
    have hmem := List.mem_of_find?_eq_some hsu
    subst g2
    refine ⟨by rw [g1]; exact hn, hsu, hmem, by rw [g1], by rw [g1], ?_, ?_, ?_⟩
    · rw [g1]; exact (prepSignets_flags P w _ _ _ _ ha).length.symm
    · rw [g1]; exact (prepSignets_flags P w _ _ _ _ hb).length.symm
    · rw [g1]; exact (prepSignets_flags P w _ _ _ _ hc).length.symm

theorem closing_seal_count {P : Prims} {cfg : Config} {rng : Rng} {s : Session} (hs : newSession P cfg s.env = .ok s)
    (hr : s.suite ∈ suiteRegistry) {nonce : Bytes} {km : KM} (h : setupClosing P cfg rng s nonce = .ok km) :
    km.keys.length ≤ s.env.secrets.length + s.env.recipients.length := by
  obtain ⟨hnd, hone⟩ := registered_session hs hr
  have htool : ∀ t ∈ s.insts, t.info.name ≠ [] := by
    intro t ht
    obtain ⟨tid, _, hmk⟩ := inst_tool hs ht
    exact (toolTable_nonneg t.info (makeInst_spec hmk).2.1).2.1
  have hrt : ∀ t ∈ s.rcptTools, t ∈ s.insts := by
    intro t ht
    rcases List.mem_append.mp ht with h | h
    · exact (mem_queue.mp h).1
    · exact (mem_queue.mp h).1
  rw [setupClosing_eq P cfg rng s nonce (hone _ (by simp)) (hone _ (by simp))] at h
  simp only [closingMaterial, bind_ok_iff] at h
  obtain ⟨pws, h1, kxs, h2, kes, h3, h4⟩ := h
  cases h4
  have c1 := secretSignets_count s.env.secrets
  have c2 := toolPairs_length s.rcptTools s.env.recipients (rcptTools_nodup hnd) (fun t ht => htool t (hrt t ht))
  unfold Session.rcptTools at c2
  rw [toolPairs_append, ← pairs_eq, ← pairs_eq, List.length_append] at c2
  have c3 := collectFrom_length h2
  have c4 := collectFrom_length h3
  simp only [List.length_append, List.length_map]
  omega

theorem signLetter_shape {P : Prims} {rng : Rng} {s : Session} {st : SState} {ctr : Nat} {ad : Bytes} {l l' : Letter}
    (h : (signLetter P rng s st ctr ad l).2 = .ok l') : ∃ sigs, l' = { l with signatures := sigs } := by
  unfold signLetter at h
  split at h
  · cases h; exact ⟨_, rfl⟩
  · simp only at h
    split at h
    · cases h
    · cases h; exact ⟨_, rfl⟩

/-- A letter that `Close` returns has the version and the suite of the envelope, and at most one seal for each secret and recipient. -/
theorem close_shape {P : Prims} {cfg : Config} {rng : Rng} {s : Session} {data : Bytes} {l : Letter} (hs : newSession P cfg s.env = .ok s)
    (hr : s.suite ∈ suiteRegistry) (h : (s.close P cfg rng s.initState data).2 = .ok l) :
    l.version = s.env.version ∧ l.suiteID = s.env.suiteID ∧ l.keys.length ≤ s.env.secrets.length + s.env.recipients.length := by
  unfold Session.close at h
  split at h
  · cases h
  · rename_i nonce hnon
    dsimp only at h
    split at h
    · split at h
      · cases h
      · obtain ⟨sigs, rfl⟩ := signLetter_shape h
        exact ⟨rfl, rfl, Nat.zero_le _⟩
    · split at h
      · cases h
      · rename_i km hkm
        split at h
        · split at h
          · cases h
          · rename_i st1 l1 henc
            obtain ⟨sigs, rfl⟩ := signLetter_shape h
            have hc := closing_seal_count hs hr hkm
            unfold encryptLetter at henc
            split at henc
            · cases henc
            · simp only [Prod.mk.injEq, protect, bind_ok_iff] at henc
              obtain ⟨_, _, _, _, _, _, _, h4⟩ := henc
              cases h4
              exact ⟨rfl, rfl, hc⟩
        · cases h

/-- `l` was made from `data` with the envelope `e` (specification): `Correspondence` and then `Close`, with some trust store, callbacks
and random numbers. -/
def ClosedWith (P : Prims) (cfg : Config) (e : Envelope) (data : Bytes) (l : Letter) : Prop :=
  e.suite = none ∧ ∃ w rng s, correspondence P cfg w suiteRegistry e = .ok s ∧ (s.close P cfg rng s.initState data).2 = .ok l

/-- C84, part one. A letter closed with at most 16 secrets and recipients is bound by its associated data and by the data that is signed: any
letter with the same associated data has the same version, suite, nonce and key seals, with the same signing data also the same MAC. -/
theorem closed_letter_bound (P : Prims) (cfg : Config) (e : Envelope) (data : Bytes) (m : Letter) (hm : ClosedWith P cfg e data m)
    (hn : e.secrets.length + e.recipients.length ≤ 16) (hsz : m.Sized) (l : Letter) (hl : l.Sized) :
    (l.compileAD = m.compileAD → l.version = m.version ∧ l.suiteID = m.suiteID ∧ l.nonce = m.nonce ∧ l.keys = m.keys) ∧
    (l.compileSigningData l.compileAD = m.compileSigningData m.compileAD →
      l.mac = m.mac ∧ l.version = m.version ∧ l.suiteID = m.suiteID ∧ l.nonce = m.nonce ∧ l.keys = m.keys) := by
  obtain ⟨he, w, rng, s, hs, hc⟩ := hm
  have hls := library_session he hs
  obtain ⟨_, _, hk⟩ := close_shape hls.made hls.mem hc
  rw [hls.secrets, hls.recipients] at hk
  exact ⟨fun h => ad_binds_partial l m hl hsz (.inr (by omega)) h, fun h => signing_data_binds_partial l m hl hsz (.inr (by omega)) h⟩

/-- C84, part two. `secret key` says that only the parties of `closings` use the key: if the cipher accepts the data of this letter under it, the data was
sealed when one of the letters in `closings` was made, from what is decrypted. All letters in `closings` were made with at most 16 secrets and recipients.
Then `Open` of *any* letter of a suite that encrypts either works with a key that is not secret, or the letter is one of those letters, with the same
version, suite, nonce, key seals and data, and the result is what was closed. The hypothesis about the cipher is only about the key and nonce with which this letter is opened here and the letter's own associated and encrypted data. -/
theorem opened_data_authentic (P : Prims) (cfg : Config) (w : World) (reqs : Option Requirements) (secret : Bytes → Prop)
    (closings : Envelope → Bytes → Letter → Prop) (l : Letter) (hl : l.Sized)
    (hclosed : ∀ e data m, closings e data m → (∃ cfg', ClosedWith P cfg' e data m) ∧ e.secrets.length + e.recipients.length ≤ 16 ∧ m.Sized)
    (hauth : ∀ s material key nonce d, CipherKeyOf P cfg w reqs l s material key nonce → secret key →
      P.aeadOpen b!"CHACHA20-POLY1305" key nonce l.compileAD l.data = .ok d →
      ∃ e m, closings e d m ∧ l.compileAD = m.compileAD ∧ l.data = m.data)
    (suite : Suite) (hsu : getSuite suiteRegistry l.suiteID = some suite)
    (hc : Confidentiality ∈ suite.provides) (d : Bytes) (h : l.open P cfg w suiteRegistry reqs = .ok d) :
    ∃ s material key nonce, CipherKeyOf P cfg w reqs l s material key nonce ∧
      (secret key → ∃ e m, closings e d m ∧ l.version = m.version ∧ l.suiteID = m.suiteID ∧ l.nonce = m.nonce ∧ l.keys = m.keys ∧
        l.data = m.data) := by
  obtain ⟨s, mat, key, nonce, ho, hm, hck, hao⟩ := open_authenticates P cfg w reqs l d suite hsu hc h
  refine ⟨s, mat, key, nonce, ⟨ho, hm, hck⟩, fun hsec => ?_⟩
  obtain ⟨e, m, hcl, h1, h2⟩ := hauth s mat key nonce _ ⟨ho, hm, hck⟩ hsec hao
  obtain ⟨⟨cfg', hcw⟩, hn, hsz⟩ := hclosed e d m hcl
  obtain ⟨c1, c2, c3, c4⟩ := (closed_letter_bound P cfg' e d m hcw hn hsz l hl).1 h1
  exact ⟨e, m, hcl, c1, c2, c3, c4, h2⟩

/-- The envelope of the example. -/
def honestEnvelope : Envelope := toyEnvelope b!"v2" [] [b!"alice"] [b!"bob"]

/-- The closings of the example: one. -/
def honestClosing (e : Envelope) (d : Bytes) (m : Letter) : Prop := e = honestEnvelope ∧ d = b!"hello" ∧ m = honestLetter

/-- The hypotheses of C84 can be met: with the ideal cipher, which accepts only what was sealed for the honest letter, all hypotheses of
`opened_data_authentic` hold (all keys being secret); the letter opens, a letter with other seals does not. -/
theorem library_letter_example :
    (∀ e data m, honestClosing e data m →
      (∃ cfg', ClosedWith idealPrims cfg' e data m) ∧ e.secrets.length + e.recipients.length ≤ 16 ∧ m.Sized) ∧
    (∀ key nonce ad c d, idealPrims.aeadOpen b!"CHACHA20-POLY1305" key nonce ad c = .ok d →
      ∃ e m, honestClosing e d m ∧ ad = m.compileAD ∧ c = m.data) ∧
    honestLetter.keys.length = 1 ∧
    honestLetter.open idealPrims toyConfig toyWorld suiteRegistry none = .ok b!"hello" ∧
    { honestLetter with keys := [] }.open idealPrims toyConfig toyWorld suiteRegistry none ≠ .ok b!"hello" := by
  refine ⟨?_, ?_, by decide +kernel, by decide +kernel, by decide +kernel⟩
  · rintro e data m ⟨rfl, rfl, rfl⟩
    refine ⟨⟨toyConfig, by decide +kernel, toyWorld, toyRng, ?_⟩, by decide +kernel, by unfold Letter.Sized; decide +kernel⟩
    have hx : (match correspondence idealPrims toyConfig toyWorld suiteRegistry honestEnvelope with
        | .ok s => decide ((s.close idealPrims toyConfig toyRng s.initState b!"hello").2 = .ok honestLetter) | .error _ => false) = true := by
      decide +kernel
    cases hs : correspondence idealPrims toyConfig toyWorld suiteRegistry honestEnvelope with
    | error e => rw [hs] at hx; cases hx
    | ok s => rw [hs] at hx; exact ⟨s, rfl, by simpa using hx⟩
  · intro key nonce ad c d h
    simp only [idealPrims] at h
    split at h
    · rename_i hc
      refine ⟨honestEnvelope, honestLetter, ⟨rfl, ?_, rfl⟩, hc⟩
      obtain ⟨_, rfl⟩ := hc
      simp only [toyPrims] at h
      split at h
      · cases h; decide +kernel
      · cases h
    · cases h

end Jess
