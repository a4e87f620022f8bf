import Verif.Props.CloseOpen
import Verif.Props.AssocData

/-!
# C12: modified letters are rejected
-/

namespace Jess

open Requirements

/-- The tool instances of a suite. -/
def instsOf (su : Suite) : List ToolInst := su.tools.filterMap (fun t => match makeInst t with | .ok i => some i | .error _ => none)

theorem session_insts {P : Prims} {cfg : Config} {e : Envelope} {s : Session} (h : newSession P cfg e = .ok s) :
    s.insts = instsOf s.suite := by
  obtain ⟨suite, is, lv, _, _, _, _, hm, _, _, _, _, hs, _⟩ := (newSession_ok_iff P cfg e s).mp h
  have hins : s.insts = is := by rw [hs]; rfl
  have hsu : s.suite = suite := by rw [hs]; rfl
  rw [hins, hsu]
  have : ∀ (ts : List Bytes) (is : List ToolInst), ts.map makeInst = is.map Except.ok →
      is = ts.filterMap (fun t => match makeInst t with | .ok i => some i | .error _ => none) := by
    intro ts
    induction ts with
    | nil => intro is h; cases is with | nil => rfl | cons _ _ => cases h
    | cons t ts ih =>
      intro is h
      cases is with
      | nil => cases h
      | cons i is =>
        simp only [List.map_cons, List.cons.injEq] at h
        rw [List.filterMap_cons, h.1]
        simp only
        rw [← ih is h.2]
  exact this _ _ hm

/-- The cipher of all registered suites that encrypt. -/
def chacha : ToolInst :=
  { info := { name := b!"CHACHA20-POLY1305", purpose := .integratedCipher, hasState := true, keySize := 32, nonceSize := 12, securityLevel := 128 } }

theorem registered_cipher : ∀ su ∈ suiteRegistry, Confidentiality ∈ su.provides →
    (instsOf su).filter (fun t => t.info.hasState) = [chacha] ∧
    (instsOf su).filter (fun t => t.info.purpose = .integratedCipher) = [chacha] ∧
    (instsOf su).filter (fun t => t.info.purpose = .cipher) = [] ∧
    (instsOf su).filter (fun t => t.info.purpose = .mac) = [] ∧
    ((instsOf su).filter (fun t => t.info.purpose = .keyDerivation)).head?.isSome = true := by decide +kernel

/-- The key and the nonce of the cipher for a letter (specification): the first 32 and the next 12 bytes which the suite's key
derivation produces from the key material and the letter's nonce. -/
def CipherKey (P : Prims) (s : Session) (l : Letter) (material : List Bytes) (key nonce : Bytes) : Prop :=
  ∃ k, s.kdf = some k ∧ P.kdf k.info.name k.hashName l.nonce material.flatten 0 32 = .ok key ∧
    P.kdf k.info.name k.hashName l.nonce material.flatten 32 12 = .ok nonce

theorem setup_chacha {P : Prims} {s : Session} {k : ToolInst} {nonce : Bytes} {m : List Bytes} {st : List ToolState} {o : ToolState}
    {tools : List ToolState} (hst : s.stateful = [chacha]) (hlen : st = [o])
    (h : setupTools P s k nonce m 0 s.stateful st = (tools, .ok ())) :
    ∃ key n u, P.kdf k.info.name k.hashName nonce m.flatten 0 32 = .ok key ∧ P.kdf k.info.name k.hashName nonce m.flatten 32 12 = .ok n ∧
      tools = [{ key := key, nonce := n, ready := true, used := u }] := by
  subst hlen
  rw [hst] at h
  have hw : chacha.wantsNonce = true := by decide
  have hks : s.toolKeySize chacha = 32 := rfl
  have hns : s.toolNonceSize chacha = 12 := rfl
  simp only [setupTools, setupTool, setupNonce, hw, if_true, hks, hns, kdfRead] at h
  cases h1 : P.kdf k.info.name k.hashName nonce m.flatten 0 32 with
  | error e => rw [h1] at h; simp at h
  | ok key =>
    rw [h1] at h
    simp only [Nat.zero_add] at h
    cases h2 : P.kdf k.info.name k.hashName nonce m.flatten 32 12 with
    | error e => rw [h2] at h; simp at h
    | ok n =>
      rw [h2] at h
      simp only [Prod.mk.injEq, and_true] at h
      exact ⟨key, n, o.used, rfl, rfl, h.symm⟩

/-- The structure of a session for a registered suite that encrypts. -/
theorem encrypting_session {P : Prims} {cfg : Config} {e : Envelope} {s : Session} (h : newSession P cfg e = .ok s)
    (hr : s.suite ∈ suiteRegistry) (hc : Confidentiality ∈ s.suite.provides) :
    s.stateful = [chacha] ∧ s.queue .integratedCipher = [chacha] ∧ s.queue .cipher = [] ∧ s.queue .mac = [] ∧ (∃ k, s.kdf = some k) := by
  have hi := session_insts h
  obtain ⟨h1, h2, h3, h4, h5⟩ := registered_cipher s.suite hr hc
  unfold Session.stateful Session.kdf Session.queue
  rw [hi]
  exact ⟨h1, h2, h3, h4, Option.isSome_iff_exists.mp h5⟩

theorem ready_chacha {s : Session} (hst : s.stateful = [chacha]) (x : ToolState) :
    s.ready [x] .integratedCipher = [(chacha, x)] ∧ s.ready [x] .cipher = [] ∧ s.ready [x] .mac = [] := by
  unfold Session.ready
  rw [hst]
  refine ⟨?_, ?_, ?_⟩ <;> simp [chacha]

/-- C12, part one. What a successful `Letter.Open` of an encrypted letter has checked: the data is an authentic ciphertext for
the version, suite, nonce and key seals of the letter, under the key that is derived from the key material and the letter's
nonce. -/
theorem open_authenticates (P : Prims) (cfg : Config) (w : World) (reqs : Option Requirements) (l : Letter) (d : Bytes)
    (suite : Suite) (hsu : getSuite suiteRegistry l.suiteID = some suite) (hc : Confidentiality ∈ suite.provides)
    (h : l.open P cfg w suiteRegistry reqs = .ok d) :
    ∃ s material key nonce, OpenedBy P cfg w suiteRegistry reqs l s ∧ setupOpening P cfg s l = .ok material ∧
      CipherKey P s l material key nonce ∧ P.aeadOpen b!"CHACHA20-POLY1305" key nonce l.compileAD l.data = .ok d := by
  obtain ⟨s, ho, hop⟩ := open_ok h
  have hs2 : s.suite = suite := by
    have := ho.suite; rw [hsu] at this; exact (Option.some.inj this).symm
  have hmem := List.mem_of_find?_eq_some ho.suite
  obtain ⟨q1, q2, q3, q4, k, q5⟩ := encrypting_session ho.session hmem (by rw [hs2]; exact hc)
  unfold Session.open at hop
  split at hop
  · cases hop
  · have hcl := (checkSignatures_clean (P := P) (clean_init s) l).1
    generalize checkSignatures P s s.initState l = cs at hop hcl
    obtain ⟨st, r⟩ := cs
    cases r with
    | error e => cases hop
    | ok u =>
      simp only at hop hcl
      rw [q5] at hop
      simp only at hop
      split at hop
      · cases hop
      · rename_i mat hmat
        split at hop
        · unfold decryptLetter at hop
          split at hop
          · cases hop
          · rename_i tools hset
            have hlen := hcl.len
            rw [q1] at hlen
            obtain ⟨o, hst⟩ := List.length_eq_one_iff.mp hlen
            obtain ⟨key, n, u', k1, k2, rfl⟩ := setup_chacha q1 hst hset
            simp only at hop
            obtain ⟨r1, r2, r3⟩ := ready_chacha q1 { key := key, nonce := n, ready := true, used := u' }
            have had : s.adOf l = l.compileAD := by
              unfold Session.adOf Session.needsAD; rw [q2]; rfl
            simp only [unprotect, r1, r2, r3, q4, runMACs, foldRes, ok_bind, List.isEmpty_nil, Bool.not_true, Bool.false_and,
              Bool.false_eq_true, if_false, runUnseal, List.reverse_cons, List.reverse_nil, List.nil_append, openOne, runDecrypt, had] at hop
            refine ⟨s, mat, key, n, ho, hmat, ⟨k, q5, k1, k2⟩, ?_⟩
            have : chacha.info.name = b!"CHACHA20-POLY1305" := rfl
            rw [this] at hop
            cases ha : P.aeadOpen b!"CHACHA20-POLY1305" key n l.compileAD l.data with
            | ok x => rw [ha] at hop; simp only [ok_bind] at hop; exact hop
            | error e =>
              rw [ha] at hop
              cases e <;> simp [error_bind] at hop
        · cases hop

/-- C12, part two. What `Close` produces for a registered suite that encrypts: an authentic ciphertext for exactly the version,
suite, nonce and key seals of the letter. -/
theorem close_authenticates (P : Prims) (cfg : Config) (rng : Rng) (s : Session) (hs : newSession P cfg s.env = .ok s)
    (hr : s.suite ∈ suiteRegistry) (hc : Confidentiality ∈ s.suite.provides) (data : Bytes) (l : Letter)
    (h : (s.close P cfg rng s.initState data).2 = .ok l) :
    ∃ material key nonce, CipherKey P s l material key nonce ∧
      P.aeadSeal b!"CHACHA20-POLY1305" key nonce l.compileAD data = .ok l.data ∧ l.mac = [] ∧ l.applyKeys = false ∧
      l.version = s.env.version ∧ l.suiteID = s.env.suiteID ∧
      ∃ km, setupClosing P cfg rng s l.nonce = .ok km ∧ km.material = material ∧ km.keys = l.keys := by
  obtain ⟨q1, q2, q3, q4, k, q5⟩ := encrypting_session hs hr hc
  have had : ∀ l : Letter, s.adOf l = l.compileAD := by
    intro l; unfold Session.adOf Session.needsAD; rw [q2]; rfl
  unfold Session.close at h
  split at h
  · cases h
  · rename_i nonce hnon
    dsimp only at h
    rw [q5] at h
    simp only at h
    split at h
    · cases h
    · rename_i km hkm
      split at h
      · split at h
        · cases h
        · rename_i st1 l1 henc
          have hl : ∃ sigs, l = { l1 with signatures := sigs } := by
            unfold signLetter at h
            split at h
            · cases h; exact ⟨l.signatures, rfl⟩
            · simp only at h
              split at h
              · cases h
              · cases h; exact ⟨_, rfl⟩
          obtain ⟨sigs, rfl⟩ := hl
          unfold encryptLetter at henc
          split at henc
          · cases henc
          · rename_i tools hset
            have hini : s.initState.tools = [{}] := by unfold Session.initState; rw [q1]; rfl
            obtain ⟨key, n, u', k1, k2, rfl⟩ := setup_chacha q1 hini hset
            simp only [Prod.mk.injEq] at henc
            obtain ⟨_, hprot⟩ := henc
            obtain ⟨r1, r2, r3⟩ := ready_chacha q1 { key := key, nonce := n, ready := true, used := u' }
            have hn : chacha.info.name = b!"CHACHA20-POLY1305" := rfl
            simp only [protect, bind_ok_iff, r1, r2, r3, runEncrypt, runSeal, runMACs, foldRes, had, hn] at hprot
            obtain ⟨d1, h1, d2, h2, m, h3, h4⟩ := hprot
            cases h1
            cases h3
            cases h4
            refine ⟨km.material, key, n, ⟨k, q5, k1, k2⟩, ?_, rfl, rfl, rfl, rfl, km, hkm, rfl, rfl⟩
            split at h2
            · cases h2
            · rename_i b hb
              cases h2
              exact hb
      · cases h

/-- Whoever opens `l` here works with this cipher key and nonce (specification): a session opened for the letter, the key material it collects, and what is
derived from it. -/
def CipherKeyOf (P : Prims) (cfg : Config) (w : World) (reqs : Option Requirements) (l : Letter) (s : Session) (material : List Bytes) (key nonce : Bytes) : Prop :=
  OpenedBy P cfg w suiteRegistry reqs l s ∧ setupOpening P cfg s l = .ok material ∧ CipherKey P s l material key nonce

/-- C12 if honest parties close letters with at most 16 key seals (the letter that is opened can have any number of them). Assume that the data of the
letter is not a forgery: if the cipher accepts it with the letter's associated data, under the key and nonce with which the letter is opened here, then both
were made for a letter in `closed` (the letters honest parties closed under this key and nonce). Then a letter that
opens has the version, suite, nonce, key seals and data of a closed letter: every modification of them is rejected. Nothing is assumed about other
keys, nonces and cipher texts.
Missing: closed letters with more than 16 key seals, for which the associated data is ambiguous (`ad_collision`, C05). -/
theorem tampering_detected_partial (P : Prims) (cfg : Config) (w : World) (reqs : Option Requirements)
    (closed : (key nonce : Bytes) → Letter → Prop) (l : Letter) (hl : l.Sized)
    (hsize : ∀ key nonce m, closed key nonce m → m.Sized ∧ m.keys.length ≤ 16)
    (hauth : ∀ s material key nonce d, CipherKeyOf P cfg w reqs l s material key nonce →
      P.aeadOpen b!"CHACHA20-POLY1305" key nonce l.compileAD l.data = .ok d →
      ∃ m, closed key nonce m ∧ l.compileAD = m.compileAD ∧ l.data = m.data)
    (suite : Suite)
    (hsu : getSuite suiteRegistry l.suiteID = some suite) (hc : Confidentiality ∈ suite.provides) (d : Bytes)
    (h : l.open P cfg w suiteRegistry reqs = .ok d) :
    ∃ m s material key nonce, closed key nonce m ∧ CipherKeyOf P cfg w reqs l s material key nonce ∧
      l.version = m.version ∧ l.suiteID = m.suiteID ∧ l.nonce = m.nonce ∧ l.keys = m.keys ∧ l.data = m.data := by
  obtain ⟨s, mat, key, nonce, ho, hm, hck, hao⟩ := open_authenticates P cfg w reqs l d suite hsu hc h
  obtain ⟨m, hcl, h1, h2⟩ := hauth s mat key nonce _ ⟨ho, hm, hck⟩ hao
  obtain ⟨a, b⟩ := hsize key nonce m hcl
  obtain ⟨c1, c2, c3, c4⟩ := ad_binds_partial l m hl a (.inr b) h1
  exact ⟨m, s, mat, key, nonce, hcl, ⟨ho, hm, hck⟩, c1, c2, c3, c4, h2⟩

/-- The letter of the example. -/
def honestLetter : Letter := match toyClose (toyEnvelope b!"v2" [] [b!"alice"] [b!"bob"]) b!"hello" with | .ok l => l | .error _ => {}

/-- An ideal cipher: it accepts what was sealed for the honest letter, and nothing else. -/
def idealPrims : Prims :=
  { toyPrims with aeadOpen := fun tool key nonce ad c =>
      if ad = honestLetter.compileAD ∧ c = honestLetter.data then toyPrims.aeadOpen tool key nonce ad c else .error .integrity }

/-- The hypotheses can be met: the honest letter opens with the ideal cipher, a modified one does not. -/
theorem tampering_example :
    (∀ key nonce ad c d, idealPrims.aeadOpen b!"CHACHA20-POLY1305" key nonce ad c = .ok d →
      ∃ m, m = honestLetter ∧ ad = m.compileAD ∧ c = m.data) ∧
    honestLetter.keys.length ≤ 16 ∧
    honestLetter.open idealPrims toyConfig toyWorld suiteRegistry none = .ok b!"hello" ∧
    ({ honestLetter with nonce := [1, 2, 3, 4] } : Letter).open idealPrims toyConfig toyWorld suiteRegistry
      (some (full.remove SenderAuthentication)) ≠ .ok b!"hello" := by
  refine ⟨?_, by decide +kernel, by decide +kernel, by decide +kernel⟩
  intro key nonce ad c d h
  simp only [idealPrims] at h
  split at h
  · rename_i hc; exact ⟨_, rfl, hc.1, hc.2⟩
  · cases h

/-- A trust store with the same shared key under every ID. -/
def sameKeyWorld : World := { store := some (fun id _ => .ok { version := 1, id := id, scheme := schemeKey, key := List.replicate 32 7 }) }

/-- An ID which contains what looks like the next seal. -/
def trickyID : Bytes := b!"0123456789" ++ [18, 16, 3] ++ b!"key" ++ [17, 1] ++ b!"b"

/-- A letter closed with 19 shared keys. -/
def manyKeysLetter : Letter :=
  match correspondence toyPrims toyConfig sameKeyWorld suiteRegistry
      { suiteID := b!"key_v2", secrets := (List.replicate 18 b!"a" ++ [trickyID]).map (fun id => { id := id, scheme := schemeKey }) } with
  | .error _ => {}
  | .ok s => match (s.close toyPrims toyConfig toyRng s.initState b!"hello").2 with | .ok l => l | .error _ => {}

/-- Modified: the last seal refers to another key, the one before has a value. -/
def manyKeysForged : Letter :=
  { manyKeysLetter with keys := manyKeysLetter.keys.take 17 ++
      [({ scheme := schemeKey, id := b!"a", value := [3] ++ b!"key" ++ [17, 19] ++ b!"0123456789" } : Seal), { scheme := schemeKey, id := b!"b" }] }

/-- An ideal cipher for this letter: it accepts only the data of the letter with the associated data of the letter. -/
def idealFor (m : Letter) : Prims :=
  { toyPrims with aeadOpen := fun tool key nonce ad c =>
      if ad = m.compileAD ∧ c = m.data then toyPrims.aeadOpen tool key nonce ad c else .error .integrity }

/-- C12 refuted beyond 16 seals: also with an ideal cipher, a letter with other key seals than the one that was closed is accepted. Both letters refer to keys which the
recipient has, and the keys are the same. -/
theorem tampering_refuted :
    (∀ key nonce ad c d, (idealFor manyKeysLetter).aeadOpen b!"CHACHA20-POLY1305" key nonce ad c = .ok d →
      ∃ m, m = manyKeysLetter ∧ ad = m.compileAD ∧ c = m.data) ∧
    manyKeysLetter.open (idealFor manyKeysLetter) toyConfig sameKeyWorld suiteRegistry none = .ok b!"hello" ∧
    manyKeysForged.keys ≠ manyKeysLetter.keys ∧ manyKeysForged.compileAD = manyKeysLetter.compileAD ∧
    manyKeysForged.open (idealFor manyKeysLetter) toyConfig sameKeyWorld suiteRegistry none = .ok b!"hello" := by
  refine ⟨?_, by decide +kernel, by decide +kernel, by decide +kernel, by decide +kernel⟩
  intro key nonce ad c d h
  simp only [idealFor] at h
  split at h
  · rename_i hc; exact ⟨_, rfl, hc.1, hc.2⟩
  · cases h

end Jess
