import Verif.Props.Tamper
import Verif.Props.WireState

/-! C53: the nonce of a letter is drawn from the random source, and letters with different draws have different keys. -/

namespace Jess

open Requirements

theorem randomBytes_ok {rng : Rng} {i n : Nat} {b : Bytes} (h : randomBytes rng i n = .ok b) : rng.read i n = .ok b ∧ b.length = n := by
  simp only [randomBytes, bind_ok_iff] at h
  obtain ⟨x, h1, h2⟩ := h
  split at h2
  · cases h2
  · rename_i hl
    cases h2
    exact ⟨h1, Decidable.byContradiction hl⟩

theorem signLetter_nonce {P : Prims} {rng : Rng} {s : Session} {st : SState} {ctr : Nat} {ad : Bytes} {l l' : Letter}
    (h : (signLetter P rng s st ctr ad l).2 = .ok l') : l'.nonce = l.nonce := by
  unfold signLetter at h
  split at h
  · cases h; rfl
  · dsimp only at h
    split at h
    · cases h
    · cases h; rfl

theorem encryptLetter_nonce {P : Prims} {s : Session} {st : SState} {k : ToolInst} {mat : List Bytes} {off : Nat} {l l' : Letter} {d : Bytes}
    (h : (encryptLetter P s st k mat off l d).2 = .ok l') : l'.nonce = l.nonce := by
  unfold encryptLetter at h
  split at h
  · cases h
  · simp only [protect, bind_ok_iff] at h
    obtain ⟨d1, _, d2, _, m, _, h4⟩ := h
    cases h4; rfl

/-- C53. The nonce of every letter that `Close` makes is what was drawn from the random source for it, and has the size for the session. -/
theorem close_nonce (P : Prims) (cfg : Config) (rng : Rng) (s : Session) (st : SState) (data : Bytes) (l : Letter)
    (h : (s.close P cfg rng st data).2 = .ok l) : rng.read 0 s.nonceSize = .ok l.nonce ∧ l.nonce.length = s.nonceSize := by
  unfold Session.close at h
  split at h
  · cases h
  · rename_i nonce hn
    have hr := randomBytes_ok hn
    suffices hl : l.nonce = nonce by rw [hl]; exact hr
    dsimp only at h
    split at h
    · split at h
      · cases h
      · exact signLetter_nonce h
    · split at h
      · cases h
      · split at h
        · split at h
          · cases h
          · rename_i st' l1 henc
            have h1 := signLetter_nonce h
            have h2 := encryptLetter_nonce (l' := l1) (by rw [henc])
            rw [h1, h2]
        · cases h

/-- C53. The same for wire sessions: every letter has its own draw. -/
theorem wire_close_nonce (P : Prims) (cfg : Config) (rng : Rng) (s : Session) (st : SState) (w : Wire) (data : Bytes) (l : Letter)
    (h : (s.wireClose P cfg rng st w data).2 = .ok l) : rng.read 0 s.nonceSize = .ok l.nonce ∧ l.nonce.length = s.nonceSize := by
  have hw : ∀ n, (wireHeader s w n).nonce = n := by
    intro n; unfold wireHeader; split <;> rfl
  unfold Session.wireClose at h
  split at h
  · cases h
  · rename_i nonce hn
    have hr := randomBytes_ok hn
    suffices hl : l.nonce = nonce by rw [hl]; exact hr
    split at h
    · split at h
      · cases h
      · have := signLetter_nonce h
        rw [this]; exact hw nonce
    · split at h
      · cases h
      · split at h
        · cases h
        · rename_i st' l1 henc
          have h1 := signLetter_nonce h
          have h2 := encryptLetter_nonce (l' := l1) (by rw [henc])
          rw [h1, h2]; exact hw nonce

/-- The key derivation gives the same key for different nonces: what a cryptographic key derivation function does not do (specification). -/
def KdfCollision (P : Prims) (nonce nonce' : Bytes) : Prop :=
  nonce ≠ nonce' ∧ ∃ tool hash material off tool' hash' material' off' key,
    P.kdf tool hash nonce material off 32 = .ok key ∧ P.kdf tool' hash' nonce' material' off' 32 = .ok key

/-- C53. Two letters, closed by any two sessions (or twice by one session, see C11) that encrypt, with different draws from the random source:
they have different nonces, and they are encrypted with different keys, or the key derivation has a collision. -/
theorem distinct_draws_distinct_keys (P : Prims) (cfg cfg' : Config) (rng rng' : Rng) (s s' : Session)
    (hs : newSession P cfg s.env = .ok s) (hs' : newSession P cfg' s'.env = .ok s')
    (hr : s.suite ∈ suiteRegistry) (hr' : s'.suite ∈ suiteRegistry)
    (hc : Confidentiality ∈ s.suite.provides) (hc' : Confidentiality ∈ s'.suite.provides) (data data' : Bytes) (l l' : Letter)
    (h : (s.close P cfg rng s.initState data).2 = .ok l) (h' : (s'.close P cfg' rng' s'.initState data').2 = .ok l')
    (hdraw : rng.read 0 s.nonceSize ≠ rng'.read 0 s'.nonceSize) :
    ∃ key nonce key' nonce', P.aeadSeal b!"CHACHA20-POLY1305" key nonce l.compileAD data = .ok l.data ∧
      P.aeadSeal b!"CHACHA20-POLY1305" key' nonce' l'.compileAD data' = .ok l'.data ∧
      l.nonce ≠ l'.nonce ∧ (key ≠ key' ∨ KdfCollision P l.nonce l'.nonce) := by
  obtain ⟨m, key, n, ⟨k, _, k1, _⟩, hseal, _⟩ := close_authenticates P cfg rng s hs hr hc data l h
  obtain ⟨m', key', n', ⟨k', _, k1', _⟩, hseal', _⟩ := close_authenticates P cfg' rng' s' hs' hr' hc' data' l' h'
  have hne : l.nonce ≠ l'.nonce := by
    intro he
    apply hdraw
    rw [(close_nonce P cfg rng s _ data l h).1, (close_nonce P cfg' rng' s' _ data' l' h').1, he]
  refine ⟨key, n, key', n', hseal, hseal', hne, ?_⟩
  by_cases hk : key = key'
  · subst hk
    exact Or.inr ⟨hne, _, _, _, _, _, _, _, _, key, k1, k1'⟩
  · exact Or.inl hk

theorem setup_chacha_at {P : Prims} {s : Session} {k : ToolInst} {nonce : Bytes} {m : List Bytes} {off : Nat} {st : List ToolState} {o : ToolState}
    {tools : List ToolState} (hst : s.stateful = [chacha]) (hlen : st = [o])
    (h : setupTools P s k nonce m off s.stateful st = (tools, .ok ())) :
    ∃ key n u, P.kdf k.info.name k.hashName nonce m.flatten off 32 = .ok key ∧ P.kdf k.info.name k.hashName nonce m.flatten (off + 32) 12 = .ok n ∧
      tools = [{ key := key, nonce := n, ready := true, used := u }] := by
  subst hlen
  rw [hst] at h
  have hw : chacha.wantsNonce = true := by decide
  have hks : s.toolKeySize chacha = 32 := rfl
  have hns : s.toolNonceSize chacha = 12 := rfl
  simp only [setupTools, setupTool, setupNonce, hw, if_true, hks, hns, kdfRead] at h
  cases h1 : P.kdf k.info.name k.hashName nonce m.flatten off 32 with
  | error e => rw [h1] at h; simp at h
  | ok key =>
    rw [h1] at h
    simp only at h
    cases h2 : P.kdf k.info.name k.hashName nonce m.flatten (off + 32) 12 with
    | error e => rw [h2] at h; simp at h
    | ok n =>
      rw [h2] at h
      simp only [Prod.mk.injEq, and_true] at h
      exact ⟨key, n, o.used, rfl, rfl, h.symm⟩

/-- C53. What `Close` of a wire session does with the data: it is sealed with a key derived with the nonce of the letter. -/
theorem wire_close_authenticates (P : Prims) (cfg : Config) (rng : Rng) (s : Session) (hs : newSession P cfg s.env = .ok s)
    (hr : s.suite ∈ suiteRegistry) (hc : Confidentiality ∈ s.suite.provides) (st : SState) (hcl : Clean s st) (w : Wire) (data : Bytes)
    (l : Letter) (h : (s.wireClose P cfg rng st w data).2 = .ok l) :
    ∃ k material off key nonce, s.kdf = some k ∧ P.kdf k.info.name k.hashName l.nonce material off 32 = .ok key ∧
      P.aeadSeal b!"CHACHA20-POLY1305" key nonce l.compileAD data = .ok l.data := by
  obtain ⟨q1, q2, q3, q4, k, q5⟩ := encrypting_session hs hr hc
  have had : ∀ l : Letter, s.adOf l = l.compileAD := by
    intro l; unfold Session.adOf Session.needsAD; rw [q2]; rfl
  unfold Session.wireClose at h
  split at h
  · cases h
  · rename_i nonce hnon
    rw [q5] at h
    dsimp only at h
    split at h
    · cases h
    · rename_i w' hk hsend
      split at h
      · cases h
      · rename_i st1 l1 henc
        have hl : ∃ sigs, l = { l1 with signatures := sigs } := by
          dsimp only at h
          unfold signLetter at h
          split at h
          · cases h; exact ⟨l.signatures, rfl⟩
          · simp only at h
            split at h
            · cases h
            · cases h; exact ⟨_, rfl⟩
        obtain ⟨sigs, rfl⟩ := hl
        unfold encryptLetter at henc
        split at henc
        · cases henc
        · rename_i tools hset
          have hlen := hcl.len
          rw [q1] at hlen
          obtain ⟨o, hst⟩ := List.length_eq_one_iff.mp hlen
          obtain ⟨key, n, u', k1, k2, rfl⟩ := setup_chacha_at q1 hst hset
          simp only [Prod.mk.injEq] at henc
          obtain ⟨_, hprot⟩ := henc
          obtain ⟨r1, r2, r3⟩ := ready_chacha q1 { key := key, nonce := n, ready := true, used := u' }
          have hn : chacha.info.name = b!"CHACHA20-POLY1305" := rfl
          simp only [protect, bind_ok_iff, r1, r2, r3, runEncrypt, runSeal, runMACs, foldRes, had, hn] at hprot
          obtain ⟨d1, h1, d2, h2, m, h3, h4⟩ := hprot
          cases h1
          cases h3
          cases h4
          refine ⟨k, hk.material.flatten, hk.off, key, n, q5, k1, ?_⟩
          split at h2
          · cases h2
          · rename_i b hb
            cases h2
            exact hb

/-- C53 for wire sessions: letters with different draws are encrypted with different keys, or the key derivation has a collision. -/
theorem wire_distinct_keys (P : Prims) (cfg cfg' : Config) (rng rng' : Rng) (s s' : Session)
    (hs : newSession P cfg s.env = .ok s) (hs' : newSession P cfg' s'.env = .ok s')
    (hr : s.suite ∈ suiteRegistry) (hr' : s'.suite ∈ suiteRegistry)
    (hc : Confidentiality ∈ s.suite.provides) (hc' : Confidentiality ∈ s'.suite.provides) (st st' : SState) (hcl : Clean s st) (hcl' : Clean s' st')
    (w w' : Wire) (data data' : Bytes) (l l' : Letter)
    (h : (s.wireClose P cfg rng st w data).2 = .ok l) (h' : (s'.wireClose P cfg' rng' st' w' data').2 = .ok l')
    (hdraw : rng.read 0 s.nonceSize ≠ rng'.read 0 s'.nonceSize) :
    ∃ key nonce key' nonce', P.aeadSeal b!"CHACHA20-POLY1305" key nonce l.compileAD data = .ok l.data ∧
      P.aeadSeal b!"CHACHA20-POLY1305" key' nonce' l'.compileAD data' = .ok l'.data ∧
      l.nonce ≠ l'.nonce ∧ (key ≠ key' ∨ KdfCollision P l.nonce l'.nonce) := by
  obtain ⟨k, m, off, key, n, _, k1, hseal⟩ := wire_close_authenticates P cfg rng s hs hr hc st hcl w data l h
  obtain ⟨k', m', off', key', n', _, k1', hseal'⟩ := wire_close_authenticates P cfg' rng' s' hs' hr' hc' st' hcl' w' data' l' h'
  have hne : l.nonce ≠ l'.nonce := by
    intro he
    apply hdraw
    rw [(wire_close_nonce P cfg rng s st w data l h).1, (wire_close_nonce P cfg' rng' s' st' w' data' l' h').1, he]
  refine ⟨key, n, key', n', hseal, hseal', hne, ?_⟩
  by_cases hk : key = key'
  · subst hk
    exact Or.inr ⟨hne, _, _, _, _, _, _, _, _, key, k1, k1'⟩
  · exact Or.inl hk

/-- The hypotheses are met: two letters with different draws, different nonces and different keys. -/
theorem nonce_example :
    (match correspondence toyPrims toyConfig toyWorld suiteRegistry (toyEnvelope b!"v2" [] [b!"alice"] [b!"bob"]) with
      | .ok s =>
        let rng' : Rng := { toyRng with read := fun i n => .ok (List.replicate n (UInt8.ofNat (i + 9))) }
        match (s.close toyPrims toyConfig toyRng s.initState b!"hello").2, (s.close toyPrims toyConfig rng' s.initState b!"hello").2 with
        | .ok l, .ok l' => decide (l.nonce ≠ l'.nonce) && decide (l.nonce.length = 4) && decide (toyRng.read 0 s.nonceSize ≠ rng'.read 0 s.nonceSize) &&
            decide (l.data ≠ l'.data)
        | _, _ => false
      | .error _ => false) = true := by
  decide +kernel

end Jess
